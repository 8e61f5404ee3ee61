import Verif.Spec.Working
import Verif.Props.Together
import Verif.Props.Defined
import Verif.Props.Process
import Verif.Props.DialogueHealthy
import Verif.Proofs.ThreadHealthyPool
import Verif.Proofs.NetworkCatches
import Verif.Proofs.AsyncOut
/-! A client and a server over a connection that does not fail.  -/

namespace OatWS.Together
open Network RFC6455

/-- As `ClientOn`, with an application that does nothing to end listening, and catches what sends throw. -/
inductive ClientCalm (env : Env) (fuel l B : Nat) (c : OatWS.Client.Conn) : Endpoint → Prop
  | threads (mask : Bool) (settings : List Async.Setting) (h : Header) (others : List (Threads.Prog Unit)) : lastListener settings none = some l → lastSize settings ({} : Config).readBufferSize = B → 0 < B →
      env.Keeps l B → env.Calm → (∀ q ∈ others, Threads.HelperCode (UserOp.Keeps l B) env fuel q) → ClientCalm env fuel l B c (.threads (OatWS.Client.threads env fuel mask settings h others c))
  | tasks (mask : Bool) (settings : List Async.Setting) (h : Header) (others : List (List UserOp)) : lastListener settings none = some l → lastSize settings ({} : Config).readBufferSize = B → 0 < B →
      env.Keeps l B → (∀ ops ∈ others, ∀ op ∈ ops, op.Keeps l B) → ClientCalm env fuel l B c (.tasks (OatWS.Client.tasks mask settings h (others.map fun ops => .run (Async.userTask ops)) c))

/-- As `SessionOn`, with an application that does nothing to end listening. -/
inductive SessionCalm (env : Env) (fuel l B : Nat) (sched : List IoOutcome) (out : OutStream) : Endpoint → Prop
  | threads (created destroyed : List UserOp) (h : Header) (others : List (Threads.Prog Unit)) : listenerAfter created none = some l → sizeAfter created ({} : Config).readBufferSize = B → 0 < B →
      (∀ op ∈ created, op.Starts ∧ op.calm) → (∀ op ∈ destroyed, op.Keeps l B ∧ op.calm) → env.Keeps l B → env.Calm → (∀ q ∈ others, Threads.HelperCode (UserOp.Keeps l B) env fuel q) →
      SessionCalm env fuel l B sched out (.threads (Threads.newSession env fuel created h destroyed others ⟨[], sched⟩ out))
  | tasks (created : List Async.Setting) (h : Header) (others : List (List UserOp)) : lastListener created none = some l → lastSize created ({} : Config).readBufferSize = B → 0 < B →
      env.Keeps l B → (∀ ops ∈ others, ∀ op ∈ ops, op.Keeps l B) → SessionCalm env fuel l B sched out (.tasks (Async.newSession created h (others.map fun ops => .run (Async.userTask ops)) ⟨[], sched⟩ out))

/-! ## Applications -/

theorem _root_.OatWS.UserOp.Keeps.careful {l B : Nat} {op : UserOp} (h : op.Keeps l B) : op.Careful B := by
  cases op <;> first | exact h | trivial

theorem _root_.OatWS.UserOp.Keeps.proper {l B : Nat} {op : UserOp} (h : op.Keeps l B) : op.Proper B := ⟨h.careful, fun e => by subst e; exact h⟩

theorem _root_.OatWS.UserOp.Keeps.fair {l B : Nat} {op : UserOp} (hB : 0 < B) (h : op.Keeps l B) : Threads.Fair op := by
  cases op with
  | setConfig c =>
    have h : c.readBufferSize = B := h
    show 0 < c.readBufferSize
    omega
  | stopListening => exact h
  | _ => trivial

theorem _root_.OatWS.UserOp.Keeps.steady {l B : Nat} {op : UserOp} (h : op.Keeps l B) : (Threads.steady l B).Op op := by
  cases op with
  | setListener x => exact ⟨l, h, rfl⟩
  | setConfig c => exact h
  | _ => trivial

theorem _root_.OatWS.UserOp.Keeps.fixed {l B : Nat} {op : UserOp} (h : op.Keeps l B) : (Async.fixedSettings l B).Op op := by
  cases op <;> first | exact h | trivial

theorem _root_.OatWS.UserOp.Starts.fair {op : UserOp} (h : op.Starts) : Threads.Fair op := by
  cases op <;> first | exact h | trivial

theorem user_task {l B : Nat} {others : List (List UserOp)} (h : ∀ ops ∈ others, ∀ op ∈ ops, op.Keeps l B) :
    ∀ t ∈ others.map fun ops => Async.Outcome.run (Async.userTask ops), (Async.fixedSettings l B).Task t ∧ Async.Outcome.quiet t ∧ t.Sane B ∧ t ≠ .blocked ∧ ∀ env, ∃ u, t = .run u ∧ Async.CarefulTask env B u := by
  intro t ht
  obtain ⟨ops, ho, rfl⟩ := List.mem_map.mp ht
  refine ⟨fun c hc => ?_, fun c hc => ?_, fun c hc => ?_, fun h => (by cases h), fun env => ⟨_, rfl, .code ops fun op hop => (h ops ho op hop).careful⟩⟩
  · rw [List.mem_singleton.mp hc]
    refine ⟨trivial, fun u hu op hop => ?_⟩
    injection hu with hu
    subst hu
    exact (h ops ho op hop).fixed
  · rw [List.mem_singleton.mp hc]
    exact ⟨fun _ h => (by cases h), fun _ h => (by cases h)⟩
  · rw [List.mem_singleton.mp hc]
    exact fun op hop => (h ops ho op hop).proper

theorem ClientCalm.on {env : Env} {fuel l B : Nat} {c : OatWS.Client.Conn} {a : Endpoint} (h : ClientCalm env fuel l B c a) : ClientOn env fuel l B c a := by
  cases h with
  | threads mask settings h others h1 h2 h3 h4 h5 h6 => exact .threads mask settings h others h1 h2 h3 (fun tr op hop => (h4 tr op hop).steady) fun q hq => (h6 q hq).weaken fun op => UserOp.Keeps.steady
  | tasks mask settings h others h1 h2 h3 h4 h5 =>
    exact .tasks mask settings h _ h1 h2 h3 (fun tr op hop => (h4 tr op hop).fixed) (fun t ht => (user_task h5 t ht).1) fun t ht => (user_task h5 t ht).2.1

theorem SessionCalm.on {env : Env} {fuel l B : Nat} {sched : List IoOutcome} {out : OutStream} {b : Endpoint} (h : SessionCalm env fuel l B sched out b) : SessionOn env fuel l B sched out b := by
  cases h with
  | threads created destroyed h others h1 h2 h3 h4 h5 h6 h7 h8 =>
    exact .threads created destroyed h others h1 h2 h3 (fun op hop => (h5 op hop).1.steady) (fun tr op hop => (h6 tr op hop).steady) (fun q hq => (h8 q hq).weaken fun op => UserOp.Keeps.steady)
      (fun op hop => (h4 op hop).2) fun op hop => (h5 op hop).2
  | tasks created h others h1 h2 h3 h4 h5 =>
    exact .tasks created h _ h1 h2 h3 (fun tr op hop => (h4 tr op hop).fixed) (fun t ht => (user_task h5 t ht).1) fun t ht => (user_task h5 t ht).2.1

/-! ## One side -/

/-- What both sides have in common. -/
inductive Side (env : Env) (fuel l B : Nat) : Endpoint → Prop
  | threads {p : Threads.Pool} : (∀ t ∈ p.threads, Threads.AppThread env fuel t) → Threads.Healthy True p → 0 < p.threads.length → env.Calm → p.st.inp.bytes = [] → (∀ o ∈ p.st.inp.sched, o.fine = true) → Side env fuel l B (.threads p)
  | tasks {p : Async.Pool} : Async.Listening env l B p → (∀ t ∈ p.tasks, Async.Outcome.quiet t ∧ t.Sane B) → env.Keeps l B → p.world.Fine → Side env fuel l B (.tasks p)

theorem healthy_of {env : Env} {fuel l B : Nat} (hB : 0 < B) {t : Threads.Prog Unit} {others : List (Threads.Prog Unit)} {st : St} (ho : ∀ o ∈ st.sock.out.sched, o.fine = true) (hs : 0 < st.sock.config.readBufferSize)
    (ht : Threads.WellThread True 0 t false) (hh : ∀ q ∈ others, Threads.HelperCode (UserOp.Keeps l B) env fuel q) : Threads.Healthy True ⟨t :: others, st⟩ := by
  refine ⟨ho, fun _ => hs, fun i q hq => ⟨false, fun _ h => (by cases h), ?_⟩⟩
  cases i with
  | zero => injection hq with hq; subst hq; exact ht
  | succ i =>
    have hq : others[i]? = some q := by simpa using hq
    exact Threads.well_helper (O := UserOp.Keeps l B) (fun op ho _ => ho.fair hB) (hh q (List.mem_of_getElem? hq)) (fun _ _ _ h => (by cases h)) fun _ _ _ h => (by cases h)

theorem ClientCalm.side {env : Env} {fuel l B : Nat} {c : OatWS.Client.Conn} {a : Endpoint} (h : ClientCalm env fuel l B c a) (hc : c.inp.bytes = []) (hf : Reliable a) : Side env fuel l B a := by
  obtain ⟨hl, -⟩ := h.on.listening hc
  cases h with
  | threads mask settings h others h1 h2 h3 h4 h5 h6 =>
    obtain ⟨s1, s2, s3, s4, s5⟩ := OatWS.Client.socket_settings mask settings c
    refine .threads hl.app (healthy_of h3 hf.2 (by rw [s2, h2]; omega) ?_ h6) (Nat.succ_pos _) h5 (by show (OatWS.Client.socket mask settings c).inp.bytes = []; rw [s5]; exact hc) hf.1
    exact Threads.well_listen (fun _ tr op hop => (h4 tr op hop).fair h3) _ _ fun _ _ => rfl
  | tasks mask settings h others h1 h2 h3 h4 h5 =>
    refine .tasks hl.1 (fun t ht => ⟨hl.2 t ht, ?_⟩) h4 hf
    rcases List.mem_cons.mp ht with rfl | ht
    · intro c hc; rw [List.mem_singleton.mp hc]; trivial
    · exact (user_task h5 t ht).2.2.1

theorem SessionCalm.side {env : Env} {fuel l B : Nat} {sched : List IoOutcome} {out : OutStream} {b : Endpoint} (h : SessionCalm env fuel l B sched out b) (hf : Reliable b) : Side env fuel l B b := by
  obtain ⟨happ, -⟩ := h.on.app
  cases h with
  | threads created destroyed h others h1 h2 h3 h4 h5 h6 h7 h8 =>
    refine .threads happ (healthy_of h3 hf.2 (by show 0 < ({} : Config).readBufferSize; decide) ?_ h8) (Nat.succ_pos _) h7 rfl hf.1
    exact Threads.well_session (fun _ tr op hop => (h6 tr op hop).fair h3) _ _ _ _ (fun _ op hop => (h4 op hop).1.fair) (fun _ op hop => (h5 op hop).1.fair h3) (fun ht => (h4 _ ht).1) (fun _ _ => rfl) fun _ _ _ => rfl
  | tasks created h others h1 h2 h3 h4 h5 =>
    have hl := C69_async env fuel l B created h _ sched out h3 h1 h2 (fun tr op hop => (h4 tr op hop).fixed) (fun t ht => (user_task h5 t ht).1) fun t ht => (user_task h5 t ht).2.1
    refine .tasks hl.1 (fun t ht => ⟨hl.2 t ht, ?_⟩) h4 hf
    rcases List.mem_cons.mp ht with rfl | ht
    · intro c hc; rw [List.mem_singleton.mp hc]; trivial
    · exact (user_task h5 t ht).2.2.1

theorem Side.app {env : Env} {fuel l B : Nat} {e : Endpoint} (h : Side env fuel l B e) : e.App env fuel := by
  cases h with
  | threads h => exact h
  | tasks _ h => exact fun t ht => (h t ht).1

/-- At any moment. -/
theorem Side.moment {env : Env} {fuel l B : Nat} {e0 e : Endpoint} (h : Side env fuel l B e0) {log fed} (hfed : Fed env e0 log fed e) :
    Async.SpentOut e0.st.sock.out e.st.sock.out ∧ ∃ used, e0.st.inp.sched = used ++ e.st.inp.sched ∧ used.countP IoOutcome.moves ≤ fed.length := by
  cases h with
  | threads h1 h2 h3 h4 h5 h6 =>
    obtain ⟨q, rfl, hq⟩ := hfed.threads
    obtain ⟨-, -, k1, k2⟩ := hq.healthy h2
    obtain ⟨used, e1, e2⟩ := k2 trivial
    rw [h5] at e2
    exact ⟨k1, used, e1, by simp at e2; omega⟩
  | tasks h1 h2 h3 h4 =>
    obtain ⟨q, rfl, hq⟩ := hfed.tasks
    obtain ⟨-, -, -, -, k1, used, e1, e2⟩ := hq.healthy (B := B) (by have := h1.size; omega) (fun t ht => (h2 t ht).2) h1.start.2 h4 fun tr _ _ op hop => (h3 tr op hop).proper
    rw [h1.nothing] at e2
    exact ⟨k1, used, e1, by simp at e2; omega⟩

/-- At rest. -/
theorem Side.unbroken {env envB : Env} {fuel l B : Nat} {e0 e : Endpoint} (h : Side env fuel l B e0) (hf : e0.Enough fuel) {log fed} (hfed : Fed env e0 log fed e) {cs last : List SendCall} (ht : Speech cs last) {F : List Frame}
    (hF : Async.CarryAll envB (cs ++ last) F) (hpre : fed <+: wireOf F) (hr : e.AtRest env) (hw : e.Writable) (hd : e.Defined) : Endpoint.Unbroken env e0 e := by
  cases h with
  | threads h1 h2 h3 h4 h5 h6 =>
    obtain ⟨q, rfl, hq⟩ := hfed.threads
    exact ⟨h4, hq.begun h2 (fun t ht => (h1 t ht).live _ _ hf.1 hf.2) (fun i a k r st' h1 h2 h3 => hr _ _ (.thread h1 h2 h3)) hw hd h3, h6⟩
  | tasks h1 h2 h3 h4 =>
    obtain ⟨q, rfl, hq⟩ := hfed.tasks
    obtain ⟨k1, -⟩ := hq.healthy (B := B) (by have := h1.size; omega) (fun t ht => (h2 t ht).2) h1.start.2 h4 fun tr _ _ op hop => (h3 tr op hop).proper
    obtain ⟨hd0, others, hts, -⟩ := h1.tasks
    have hlen : 0 < q.tasks.length := by rw [hq.indices.1, hts]; simp
    show (∃ t, q.tasks[0]? = some (.run t)) ∨ q.tasks[0]? = some .finished
    have e : q.tasks[0]? = some q.tasks[0] := List.getElem?_eq_getElem hlen
    generalize q.tasks[0] = o at e
    cases o with
    | run t => exact .inl ⟨t, e⟩
    | finished => exact .inr e
    | failed x => exact absurd (k1 _ (List.mem_of_getElem? e)) (unrefused hq h1 ht hF hpre e)
    | ub u => exact (k1 _ (List.mem_of_getElem? e)).elim
    | blocked => exact absurd rfl (hq.not_blocked hf _ (List.mem_of_getElem? e))

theorem wrote_length {env : Env} {fuel : Nat} {e0 e : Endpoint} (hp : e0.App env fuel) {log fed} (h : Fed env e0 log fed e) : e.st.sock.out.written = e0.st.sock.out.written ++ log.flatMap Async.Entry.wrote := by
  cases e0 with
  | threads p =>
    obtain ⟨q, rfl, hq⟩ := h.threads
    clear h
    show q.st.sock.out.written = p.st.sock.out.written ++ _
    induction hq with
    | refl => simp
    | @own log fed q i a k r st' _ h1 h2 h3 ih =>
      have hw : ∃ d, st'.sock.out.written = q.st.sock.out.written ++ d := by
        cases a with
        | write d =>
          dsimp only [Threads.exec] at h3
          split at h3
          · cases h3
          · split at h3 <;> (injection h3 with h3; injection h3 with e1 e2; subst e1 e2)
            · exact ⟨_, rfl⟩
            · exact ⟨[], (List.append_nil _).symm⟩
        | read n =>
          dsimp only [Threads.exec] at h3
          split at h3
          · cases h3
          · injection h3 with h3; injection h3 with e1 e2; subst e1 e2; exact ⟨[], (List.append_nil _).symm⟩
        | _ => injection h3 with h3; injection h3 with e1 e2; subst e1 e2; exact ⟨[], (List.append_nil _).symm⟩
      obtain ⟨d, hd⟩ := hw
      rw [List.flatMap_append, List.flatMap_singleton, ← List.append_assoc, ← ih]
      show st'.sock.out.written = q.st.sock.out.written ++ st'.sock.out.written.drop q.st.sock.out.written.length
      rw [hd, List.drop_left]
    | feed bs _ ih => exact ih
  | tasks p =>
    obtain ⟨q, rfl, hq⟩ := h.tasks
    exact wrote_all hq hp

variable {envA envB : Env} {fuelA fuelB lA BA lB BB : Nat} {c : OatWS.Client.Conn} {schedB : List IoOutcome} {outB : OutStream} {a0 b0 a b : Endpoint} {logA logB : List Async.Entry}

/-- If low-level writes do not fail, no send fails: whatever the application does, with any number of threads and coroutines, over any history. -/
theorem sends_fine (hA : a0.App envA fuelA) (hf : ∀ o ∈ a0.st.sock.out.sched, o.fine = true) (h : Linked envA envB a0 b0 logA logB a b) : ∀ e ∈ logA, e.failed = false := by
  cases a0 with
  | threads p =>
    obtain ⟨q, -, hq⟩ := h.fed.1.threads
    exact (hq.healthy (S := False) ⟨hf, fun s => s.elim, fun i t ht => ⟨false, fun s => s.elim, Threads.well_app (hA t (List.mem_of_getElem? ht)) (fun _ _ s => s.elim) fun _ _ s => s.elim⟩⟩).2.1
  | tasks p =>
    obtain ⟨q, -, hq⟩ := h.fed.1.tasks
    exact (hq.sends hf).2.1

theorem resigned_of {log : List Async.Entry} (h : ∀ e ∈ log, e.failed = false) : Async.Resigned log := by
  rintro x e y rfl hf
  rw [h e (by simp)] at hf
  cases hf

theorem defined_client (hA : ClientCalm envA fuelA lA BA c a0) (hc : c.inp.bytes = []) (h : Linked envA envB a0 b0 logA logB a b) : a.Defined := by
  cases hA with
  | threads mask settings hd others h1 h2 h3 h4 h5 h6 =>
    have hk : (Endpoint.threads (OatWS.Client.threads envA fuelA mask settings hd others c)).Careful envA fuelA BA := by
      refine ⟨fun q hq => ?_, (OatWS.Client.socket_settings mask settings c).2.1.trans h2⟩
      rcases List.mem_cons.mp hq with rfl | hq
      · exact .listen _
      · exact Process.helper_careful ((h6 q hq).weaken fun op => UserOp.Keeps.careful)
    exact C72_connected envA envB fuelA BA _ b0 a b logA logB (fun tr op hop => (h4 tr op hop).careful) hk h
  | tasks mask settings hd others h1 h2 h3 h4 h5 =>
    have hk : (Endpoint.tasks (OatWS.Client.tasks mask settings hd (others.map fun ops => .run (Async.userTask ops)) c)).Careful envA fuelA BA := by
      refine ⟨fun o ho => ?_, (OatWS.Client.socket_settings mask settings c).2.1.trans h2⟩
      rcases List.mem_cons.mp ho with rfl | ho
      · exact ⟨_, rfl, .listen _⟩
      · exact (user_task h5 o ho).2.2.2.2 envA
    exact C72_connected envA envB fuelA BA _ b0 a b logA logB (fun tr op hop => (h4 tr op hop).careful) hk h

theorem defined_session (hB : SessionCalm envB fuelB lB BB schedB outB b0) (h : Linked envA envB a0 b0 logA logB a b) : b.Defined := by
  cases hB with
  | threads created destroyed hd others h1 h2 h3 h4 h5 h6 h7 h8 =>
    refine C72_session envA envB fuelB BB a0 a b _ created destroyed logA logB ⟨⟨hd, others, rfl, fun q hq => (h8 q hq).weaken fun op => UserOp.Keeps.careful⟩, h2, fun c catches hm => (h4 _ hm).1, ?_, ?_⟩ h
    · exact fun tr op hop => (h6 tr op hop).careful
    · exact fun op hop => (h5 op hop).1.careful
  | tasks created hd others h1 h2 h3 h4 h5 =>
    have hk : (Endpoint.tasks (Async.newSession created hd (others.map fun ops => .run (Async.userTask ops)) ⟨[], schedB⟩ outB)).Careful envB fuelB BB := by
      refine ⟨fun o ho => ?_, (OatWS.Client.socket_settings false created ⟨⟨[], schedB⟩, outB⟩).2.1.trans h2⟩
      rcases List.mem_cons.mp ho with rfl | ho
      · exact ⟨_, rfl, .listen _⟩
      · exact (user_task h5 o ho).2.2.2.2 envB
    exact C72_connected envB envA fuelB BB _ a0 b a logB logA (fun tr op hop => (h4 tr op hop).careful) hk h.swap

theorem calm_any_moment (hc : c.inp.bytes = []) (hA : ClientCalm envA fuelA lA BA c a0) (hB : SessionCalm envB fuelB lB BB schedB outB b0) (hfA : a0.Enough fuelA) (hfB : b0.Enough fuelB) (hrA : Reliable a0) (hrB : Reliable b0)
    (h : Linked envA envB a0 b0 logA logB a b) :
    ((∀ e ∈ logA, e.failed = false) ∧ ∀ e ∈ logB, e.failed = false) ∧ (a.Defined ∧ b.Defined) ∧
    (Orderly logA → ∃ n part, HeardUpTo (Async.callsOf logA) lB n part b.st.sock.trace) ∧ (Orderly logB → ∃ n part, HeardUpTo (Async.callsOf logB) lA n part a.st.sock.trace) := by
  have k1 := sends_fine (hA.side hc hrA).app hrA.2 h
  have k2 := sends_fine (hB.side hrB).app hrB.2 h.swap
  obtain ⟨k3, k4⟩ := C92_any_moment hc hA.on hB.on hfA hfB h
  exact ⟨⟨k1, k2⟩, ⟨defined_client hA hc h, defined_session hB h⟩, fun ho => k3 ho (resigned_of k1), fun ho => k4 ho (resigned_of k2)⟩

theorem calm_rested (hc : c.inp.bytes = []) (hA : ClientCalm envA fuelA lA BA c a0) (hB : SessionCalm envB fuelB lB BB schedB outB b0) (hfA : a0.Enough fuelA) (hfB : b0.Enough fuelB) (hrA : Reliable a0) (hrB : Reliable b0)
    (h : Linked envA envB a0 b0 logA logB a b) (hoA : Orderly logA) (hoB : Orderly logB) (hl : Lasts a0 b0 logA logB) (hrest : a.AtRest envA ∧ b.AtRest envB) : Rested envA envB a0 b0 logA logB a b := by
  have sA := hA.side hc hrA
  have sB := hB.side hrB
  obtain ⟨⟨k1, k2⟩, ⟨k3, k4⟩, -⟩ := calm_any_moment hc hA hB hfA hfB hrA hrB h
  obtain ⟨serA, csA, lastA, eA, tA⟩ := hoA
  obtain ⟨serB, csB, lastB, eB, tB⟩ := hoB
  obtain ⟨FA, hFA, hpA⟩ := h.fed.1.sent_some sA.app serA (resigned_of k1) (by rw [eA]; exact tA.small)
  obtain ⟨FB, hFB, hpB⟩ := h.fed.2.sent_some sB.app serB (resigned_of k2) (by rw [eB]; exact tB.small)
  have nA : (logA.flatMap Async.Entry.wrote).length ≤ atMost (Async.callsOf logA) := Nat.le_trans hpA.length_le (carryAll_length hFA)
  have nB : (logB.flatMap Async.Entry.wrote).length ≤ atMost (Async.callsOf logB) := Nat.le_trans hpB.length_le (carryAll_length hFB)
  have wA := wrote_length sA.app h.fed.1
  have wB := wrote_length sB.app h.fed.2
  obtain ⟨⟨uA, oA, oA'⟩, vA, iA, iA'⟩ := sA.moment h.fed.1
  obtain ⟨⟨uB, oB, oB'⟩, vB, iB, iB'⟩ := sB.moment h.fed.2
  rw [wA, List.length_append] at oA'
  rw [wB, List.length_append] at oB'
  have takeA : a.Writable := spent_left hl.takesA oA (by omega)
  have takeB : b.Writable := spent_left hl.takesB oB (by omega)
  exact ⟨hrest, ⟨takeA, takeB⟩, ⟨spent_left hl.givesA iA (by omega), spent_left hl.givesB iB (by omega)⟩, ⟨k1, k2⟩, ⟨k3, k4⟩,
    sA.unbroken hfA h.fed.1 tB (eB ▸ hFB) hpB hrest.1 takeA k3, sB.unbroken hfB h.fed.2 tA (eA ▸ hFA) hpA hrest.2 takeB k4⟩

theorem calm_all_heard (hc : c.inp.bytes = []) (hA : ClientCalm envA fuelA lA BA c a0) (hB : SessionCalm envB fuelB lB BB schedB outB b0) (hfA : a0.Enough fuelA) (hfB : b0.Enough fuelB) (hrA : Reliable a0) (hrB : Reliable b0)
    (h : Linked envA envB a0 b0 logA logB a b) (hoA : Orderly logA) (hoB : Orderly logB) (hl : Lasts a0 b0 logA logB) (hrest : a.AtRest envA ∧ b.AtRest envB) :
    (HeardWhole (Async.callsOf logA) lB b.st.sock.trace ∧ ((b.Waits ∧ ¬ SaidClose logA) ∨ (b.Ended envB ∧ SaidClose logA))) ∧
    (HeardWhole (Async.callsOf logB) lA a.st.sock.trace ∧ ((a.Waits ∧ ¬ SaidClose logB) ∨ (a.Ended envA ∧ SaidClose logB))) :=
  C92_all_heard hc hA.on hB.on hfA hfB h hoA hoB (calm_rested hc hA hB hfA hfB hrA hrB h hoA hoB hl hrest)

end OatWS.Together
