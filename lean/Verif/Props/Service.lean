import Verif.Spec.Service
import Verif.Proofs.AsyncAnswers
import Verif.Proofs.ThreadAnswers
import Verif.Props.Speech
/-! # C82: answers from callbacks; services -/

namespace OatWS.Network
open RFC6455 Async

theorem Fed.answers {env : Env} {p0 : Threads.Pool} {p : Threads.Pool} {log fed} (h : Threads.Fed env p0 log fed p) {t0 others} {pre : List SendCall} (hts : p0.threads = t0 :: others)
    (h0 : Threads.Owes env t0 pre (fun _ p => env.Calm → p = []) fun _ => True) (hoth : ∀ o ∈ others, Threads.NoCallback o) :
    ∃ evs, p.st.sock.trace = p0.st.sock.trace ++ evs ∧ callsOf (log.filter fun e => e.task == 0) <+: pre ++ replies env p0.st.sock.trace evs ∧
      ((Endpoint.threads p).Waits ∨ (Endpoint.threads p).Ended env → callsOf (log.filter fun e => e.task == 0) = pre ++ replies env p0.st.sock.trace evs) := by
  obtain ⟨evs, t, others', e1, e2, ⟨pend, e3, e4⟩, -⟩ := h.replying (pre := pre) hts ⟨pre, by simp [replies], h0⟩ hoth
  refine ⟨evs, e1, ⟨pend, e3⟩, ?_⟩
  have hx : p.threads[0]? = some t := by rw [e2]; rfl
  have done : pend = [] → callsOf (log.filter fun e => e.task == 0) = pre ++ replies env p0.st.sock.trace evs := by
    rintro rfl
    rw [← e3, List.append_nil]
  rintro (⟨q, hq, hr⟩ | ⟨q, hq, hr, hc⟩)
  · rw [hx] at hq
    injection hq with hq
    subst hq
    cases t with
    | act a k =>
      cases a with
      | read n => exact done e4.1
      | write d => cases hr
      | _ => exact hr.elim
    | stuck => exact hr.elim
    | _ => cases hr
  · rw [hx] at hq
    injection hq with hq
    subst hq
    cases t with
    | ret u => exact done (e4 hc)
    | act a k =>
      cases a with
      | read n => cases hr
      | write d => cases hr
      | _ => exact hr.elim
    | stuck => exact hr.elim
    | _ => cases hr

/-- **C82** (answers). At every moment, whatever has failed: what the listening thread or task has called is a beginning of what the callbacks made so far call, callback by callback, in order; when it
is about to read again, or listening has ended normally, exactly this. -/
theorem C82_answers (envA env : Env) (fuel l B : Nat) (a0 b0 a b : Endpoint) (logA log : List Entry) (hB : b0.Listening env fuel l B) (h : Linked envA env a0 b0 logA log a b) :
    ∃ evs, b.st.sock.trace = b0.st.sock.trace ++ evs ∧ callsOf (log.filter fun e => e.task == 0) <+: replies env b0.st.sock.trace evs ∧
      (b.Waits ∨ b.Ended env → callsOf (log.filter fun e => e.task == 0) = replies env b0.st.sock.trace evs) := by
  cases b0 with
  | threads p0 =>
    obtain ⟨p, rfl, hq⟩ := h.fed.2.threads
    obtain ⟨hd, others, hts, hoth⟩ := Threads.Listening.threads hB
    exact Fed.answers hq (pre := []) hts (Threads.clean_listen fuel hd) fun q hq => (Threads.by_helper (hoth q hq)).noCallback
  | tasks p0 =>
    obtain ⟨p, rfl, hq⟩ := h.fed.2.tasks
    obtain ⟨hd, others, hts, hoth⟩ := hB.1.tasks
    obtain ⟨evs, o, others', e1, e2, e3, -⟩ := hq.says hts ⟨⟨fun _ u hu => absurd hu List.not_mem_nil, trivial⟩, rfl⟩ fun o ho => by
      have := hoth o ho
      cases o with
      | run t =>
        intro c hc
        have := (this c hc).1
        cases c with
        | user u => exact fun h => by cases h
        | sendFrame c => exact fun h => by cases h
        | writeFrame c => exact fun h => by cases h
        | _ => exact this.elim
      | _ => trivial
    refine ⟨evs, e1, e3.pre, ?_⟩
    have hx : p.tasks[0]? = some o := by rw [e2]; rfl
    rintro (⟨t, ht, hr⟩ | ht)
    · rw [hx] at ht
      injection ht with ht
      subst ht
      have : Async.owes t.stack = [] := by
        rcases t with ⟨_ | ⟨c, rest⟩, loc⟩
        · rfl
        · have hk : c.kind = 2 := by cases c <;> first | rfl | cases hr
          rw [Async.owes_cons, Async.owes_of_kind (by omega), Async.owes_noUser (e3.1.1 (by omega))]
          rfl
      have e4 := e3.2
      rw [this, List.append_nil] at e4
      exact e4
    · have ht : p.tasks[0]? = some .finished := ht
      rw [hx] at ht
      injection ht with ht
      subst ht
      exact e3

/-- **C82** (answers, sessions). The same for the session of a threaded server: first what `onAfterCreate` calls, then the answers; if `onBeforeDestroy` sends nothing. -/
theorem C82_session_answers (envA env : Env) (fuel l B : Nat) (a0 a b : Endpoint) (p0 : Threads.Pool) (created destroyed : List UserOp) (logA log : List Entry)
    (hB : Threads.Session env fuel l B created destroyed p0) (hd : said destroyed = []) (h : Linked envA env a0 (.threads p0) logA log a b) :
    ∃ evs, b.st.sock.trace = p0.st.sock.trace ++ evs ∧ callsOf (log.filter fun e => e.task == 0) <+: said created ++ replies env p0.st.sock.trace evs ∧
      (b.Waits ∨ b.Ended env → callsOf (log.filter fun e => e.task == 0) = said created ++ replies env p0.st.sock.trace evs) := by
  obtain ⟨p, rfl, hq⟩ := h.fed.2.threads
  obtain ⟨hh, others, hts, hoth⟩ := hB.threads
  exact Fed.answers hq hts (Threads.clean_session fuel created destroyed hh hd) fun q hq => (Threads.by_helper (hoth q hq)).noCallback

theorem reassemble_append (acc : List UInt8) (xs ys : List Event) :
    reassemble acc (xs ++ ys) = ((reassemble acc xs).1 ++ (reassemble (reassemble acc xs).2 ys).1, (reassemble (reassemble acc xs).2 ys).2) := by
  induction xs generalizing acc with
  | nil => simp [reassemble]
  | cons e xs ih =>
    cases e with
    | readMessage l op d => cases d <;> simp [reassemble, ih]
    | _ => simp [reassemble, ih]

/-- **C82** (what a service says). What a listener that answers every message calls in the callbacks `evs`: the answers to the messages it has been told, in order. -/
theorem C82_replies (env : Env) (f : Msg → List SendCall) (h : env.Serves f) (evs : List Event) : replies env [] evs = (reassemble [] evs).1.flatMap f := by
  have key : ∀ (evs tr : List Event), replies env tr evs = (reassemble (reassemble [] tr).2 evs).1.flatMap f := by
    intro evs
    induction evs with
    | nil => intro tr; rfl
    | cons e evs ih =>
      intro tr
      show said (env.react (tr ++ [e])) ++ replies env (tr ++ [e]) evs = _
      rw [h tr e, ih, reassemble_append, show e :: evs = [e] ++ evs from rfl, reassemble_append (reassemble [] tr).2]
      simp [completes, List.flatMap_append]
  exact key evs []

theorem told_prefix {cs cs' : List SendCall} (h : cs <+: cs') : (told [] cs).1 <+: (told [] cs').1 := by
  obtain ⟨r, rfl⟩ := h
  rw [Threads.told_append]
  exact ⟨_, rfl⟩

theorem flatMap_prefix {α β : Type} {f : α → List β} {xs ys : List α} (h : xs <+: ys) : xs.flatMap f <+: ys.flatMap f := by
  obtain ⟨r, rfl⟩ := h
  rw [List.flatMap_append]
  exact ⟨_, rfl⟩

theorem fitAll_prefix {b : Bool} {cs cs' : List SendCall} (h : cs <+: cs') (hf : FitAll b cs') : FitAll b cs := by
  induction cs generalizing b cs' with
  | nil => trivial
  | cons c cs ih =>
    obtain ⟨r, rfl⟩ := h
    exact ⟨hf.1, ih ⟨r, rfl⟩ hf.2⟩

theorem Speech.prefix {cs last pre : List SendCall} (h : Speech cs last) (hp : pre <+: cs ++ last) : ∃ cs' last', pre = cs' ++ last' ∧ Speech cs' last' := by
  by_cases hl : pre.length ≤ cs.length
  · have hp' : pre <+: cs := List.prefix_of_prefix_length_le hp ⟨last, rfl⟩ hl
    exact ⟨pre, [], (List.append_nil _).symm, fitAll_prefix hp' h.fits, .inl rfl, fun c hc => h.small c (List.mem_append_left _ (hp'.subset (by rwa [List.append_nil] at hc)))⟩
  · have : pre = cs ++ last := by
      refine hp.eq_of_length ?_
      have := hp.length_le
      rcases h.ends with rfl | ⟨c, rfl, _⟩ <;> simp only [List.length_append, List.length_nil, List.length_singleton] at * <;> omega
    exact ⟨cs, last, this, h⟩

theorem OnlyListener.calls {log : List Entry} (h : OnlyListener log) : callsOf (log.filter fun e => e.task == 0) = callsOf log := by
  unfold callsOf
  induction log with
  | nil => rfl
  | cons e log ih =>
    have ih := ih fun x hx => h x (List.mem_cons_of_mem _ hx)
    rw [List.filter_cons]
    split
    · rw [List.filterMap_cons, List.filterMap_cons, ih]
    · rename_i hne
      rw [ih, List.filterMap_cons]
      cases hc : e.called with
      | none => rfl
      | some c => exact absurd (h e (List.mem_cons_self ..) (by rw [hc]; rfl)) (by simpa using hne)

theorem Server.app {env : Env} {fuel l B : Nat} {b : Endpoint} (h : Server env fuel l B b) : b.App env fuel := by
  cases h with
  | listening h => exact h.app
  | session h _ _ _ _ => exact h.app

theorem Server.answers {envA env : Env} {fuel l B : Nat} {a0 b0 a b : Endpoint} {logA log : List Entry} (hB : Server env fuel l B b0) (h : Linked envA env a0 b0 logA log a b)
    {f : Msg → List SendCall} (hs : env.Serves f) (h0 : b0.st.sock.trace = []) (ho : OnlyListener log) :
    callsOf log <+: (reassemble [] b.st.sock.trace).1.flatMap f ∧ (b.Waits ∨ b.Ended env → callsOf log = (reassemble [] b.st.sock.trace).1.flatMap f) := by
  have : ∃ evs, b.st.sock.trace = b0.st.sock.trace ++ evs ∧ callsOf (log.filter fun e => e.task == 0) <+: replies env b0.st.sock.trace evs ∧
      (b.Waits ∨ b.Ended env → callsOf (log.filter fun e => e.task == 0) = replies env b0.st.sock.trace evs) := by
    cases hB with
    | listening hB => exact C82_answers envA env fuel l B a0 b0 a b logA log hB h
    | session hB _ _ h1 h2 =>
      have := C82_session_answers envA env fuel l B a0 a b _ _ _ logA log hB h2 h
      rw [h1] at this
      exact this
  obtain ⟨evs, e1, e2, e3⟩ := this
  rw [h0] at e1 e2 e3
  rw [ho.calls, C82_replies env f hs] at e2 e3
  rw [e1]
  exact ⟨e2, e3⟩

/-- **C82** (a service, at every moment). A client and a server of any kind are connected. The client sends messages (one of them perhaps in fragments, with pings and pongs also between the fragments;
ended or not by a close), from any threads, tasks and callbacks, serialised; its first thread or task listens. The server's listener answers every message; nobody else sends there. Anything may
fail, but nobody calls a send after one of that endpoint has failed. Then at every moment the client's listener has heard exactly a beginning of the answers to what the client has sent, in order. -/
theorem C82_service (envA envB : Env) (fuelA fuelB lA BA lB BB : Nat) (a0 b0 a b : Endpoint) (logA logB : List Entry) (f : Msg → List SendCall)
    (hA : a0.Listening envA fuelA lA BA) (hB : Server envB fuelB lB BB b0) (hfA : a0.Enough fuelA) (hfB : b0.Enough fuelB) (h : Linked envA envB a0 b0 logA logB a b)
    (hserA : Serialised logA) (hresA : Resigned logA) (csA lastA : List SendCall) (hcA : callsOf logA = csA ++ lastA) (htA : Speech csA lastA)
    (hs : envB.Serves f) (h0 : b0.st.sock.trace = []) (ho : OnlyListener logB) (hresB : Resigned logB)
    (csB lastB : List SendCall) (hcB : answersTo f (callsOf logA) = csB ++ lastB) (htB : Speech csB lastB) :
    ∃ evs n part, a.st.sock.trace = a0.st.sock.trace ++ evs ∧ HeardUpTo (answersTo f (callsOf logA)) lA n part evs := by
  have hb : ∃ evs n part, b.st.sock.trace = b0.st.sock.trace ++ evs ∧ HeardUpTo (callsOf logA) lB n part evs := by
    cases hB with
    | listening hB => exact C71_any_moment envA envB fuelA fuelB lB BB a0 b0 a b logA logB hA.app hB hfB h hserA hresA csA lastA hcA htA
    | session hB _ _ _ _ => exact C71_session envA envB fuelA fuelB lB BB a0 a b _ _ _ logA logB hA.app hB hfB h hserA hresA csA lastA hcA htA
  obtain ⟨evsB, nB, partB, e1, e2⟩ := hb
  rw [h0, List.nil_append] at e1
  have hpre : callsOf logB <+: answersTo f (callsOf logA) := by
    refine (hB.answers h hs h0 ho).1.trans (flatMap_prefix ?_)
    rw [e1, e2.heard]
    exact told_prefix (List.take_prefix ..)
  obtain ⟨cs', last', hc', ht'⟩ := Speech.prefix htB (hcB ▸ hpre)
  obtain ⟨evs, n, part, k1, k2⟩ := C71_any_moment envB envA fuelB fuelA lA BA b0 a0 b a logB logA hB.app hA hfA h.swap (C69_one_sender _ ⟨0, ho⟩) hresB cs' last' hc' ht'
  obtain ⟨r, hr⟩ := hpre
  refine ⟨evs, n, part, k1, k2.to, ?_, ?_, ?_⟩
  · rw [← hr, List.length_append]; exact Nat.le_trans k2.le (Nat.le_add_right ..)
  · rw [← hr, List.take_append_of_le_length k2.le]; exact k2.heard
  · rcases k2.part with hp | ⟨c, d, g1, g2⟩
    · exact .inl hp
    · refine .inr ⟨c, d, ?_, g2⟩
      rw [← hr, List.getElem?_append_left (List.getElem?_eq_some_iff.mp g1).1]
      exact g1

/-- **C82** (a service answers everything). When no thread or task of either endpoint can make a step any more, the connection still working, no send has failed and nothing but a close has ended
listening, the client's listener has heard all the answers to all that the client has sent, in order, and nothing else; the client still listens unless the last answer was a close. -/
theorem C82_service_complete (envA envB : Env) (fuelA fuelB lA BA lB BB : Nat) (a0 b0 a b : Endpoint) (logA logB : List Entry) (f : Msg → List SendCall)
    (hA : a0.Listening envA fuelA lA BA) (hB : Server envB fuelB lB BB b0) (hfA : a0.Enough fuelA) (hfB : b0.Enough fuelB) (h : Linked envA envB a0 b0 logA logB a b)
    (hserA : Serialised logA) (hokA : ∀ e ∈ logA, e.failed = false) (csA lastA : List SendCall) (hcA : callsOf logA = csA ++ lastA) (htA : Speech csA lastA)
    (hs : envB.Serves f) (h0 : b0.st.sock.trace = []) (ho : OnlyListener logB) (hokB : ∀ e ∈ logB, e.failed = false)
    (csB lastB : List SendCall) (hcB : answersTo f (callsOf logA) = csB ++ lastB) (htB : Speech csB lastB)
    (hrA : a.AtRest envA) (hrB : b.AtRest envB) (hdA : a.Defined) (hdB : b.Defined) (hwA : a.Writable) (hwB : b.Writable) (hrdA : a.Readable) (hrdB : b.Readable)
    (hnA : Endpoint.Unbroken envA a0 a) (hnB : Endpoint.Unbroken envB b0 b) :
    ∃ evs, a.st.sock.trace = a0.st.sock.trace ++ evs ∧ HeardWhole (answersTo f (callsOf logA)) lA evs ∧ ((a.Waits ∧ lastB = []) ∨ (a.Ended envA ∧ lastB ≠ [])) := by
  have hb : ∃ evs, b.st.sock.trace = b0.st.sock.trace ++ evs ∧ HeardWhole (callsOf logA) lB evs ∧ ((b.Waits ∧ lastA = []) ∨ (b.Ended envB ∧ lastA ≠ [])) := by
    cases hB with
    | listening hB => exact C71_all_heard envA envB fuelA fuelB lB BB a0 b0 a b logA logB hA.app hB hfA hfB h hserA hokA csA lastA hcA htA hrA hrB hdA hwA hwB hrdB hnB
    | session hB h1 h2 _ _ => exact C71_session_all_heard envA envB fuelA fuelB lB BB a0 a b _ _ _ logA logB hA.app hB h1 h2 hfA hfB h hserA hokA csA lastA hcA htA hrA hrB hdA hwA hwB hrdB hnB
  obtain ⟨evsB, e1, e2, e3⟩ := hb
  rw [h0, List.nil_append] at e1
  have hall : callsOf logB = answersTo f (callsOf logA) := by
    have := (hB.answers h hs h0 ho).2 (e3.imp (fun x => x.1) fun x => x.1)
    rw [this, e1, e2.heard]
    rfl
  rw [← hall] at hcB ⊢
  exact C71_all_heard envB envA fuelB fuelA lA BA b0 a0 b a logB logA hB.app hA hfB hfA h.swap (C69_one_sender _ ⟨0, ho⟩) hokB csB lastB hcB htB hrB hrA hdB hwB hwA hrdA hnA

theorem _root_.OatWS.Data.told {N : Nat} {calls : List SendCall} (h : Data N calls) : told [] calls = (calls.map SendCall.msg, []) := by
  induction calls with
  | nil => rfl
  | cons c calls ih =>
    have ih := ih fun x hx => h x (List.mem_cons_of_mem _ hx)
    rcases (h c (List.mem_cons_self ..)).1 with ⟨m, rfl⟩ | ⟨m, rfl⟩ <;> simp [OatWS.told, ih]

theorem _root_.OatWS.Data.speech {N : Nat} (hN : N < 2 ^ 63) {calls : List SendCall} (h : Data N calls) : Speech calls [] := by
  refine ⟨?_, .inl rfl, fun c hc => Nat.lt_of_le_of_lt (h c (by rwa [List.append_nil] at hc)).2 hN⟩
  have : ∀ cs : List SendCall, Data N cs → FitAll false cs := by
    intro cs
    induction cs with
    | nil => intro _; trivial
    | cons c cs ih =>
      intro h
      have ih := ih fun x hx => h x (List.mem_cons_of_mem _ hx)
      rcases (h c (List.mem_cons_self ..)).1 with ⟨m, rfl⟩ | ⟨m, rfl⟩ <;> exact ⟨rfl, ih⟩
  exact this calls h

theorem _root_.OatWS.Data.echoed {N : Nat} {calls : List SendCall} (h : Data N calls) : Data N (answersTo (echo N) calls) ∧ (answersTo (echo N) calls).map SendCall.msg = calls.map SendCall.msg := by
  unfold answersTo
  rw [h.told]
  induction calls with
  | nil => exact ⟨fun c hc => absurd hc List.not_mem_nil, rfl⟩
  | cons c calls ih =>
    obtain ⟨i1, i2⟩ := ih fun x hx => h x (List.mem_cons_of_mem _ hx)
    have hc := h c (List.mem_cons_self ..)
    have key : ∃ d, echo N c.msg = [d] ∧ d.msg = c.msg ∧ (((∃ m, d = .text m) ∨ ∃ m, d = .binary m) ∧ d.content.2.2.length ≤ N) := by
      rcases hc.1 with ⟨m, rfl⟩ | ⟨m, rfl⟩
      · exact ⟨_, if_pos hc.2, rfl, .inl ⟨_, rfl⟩, hc.2⟩
      · exact ⟨_, if_pos hc.2, rfl, .inr ⟨_, rfl⟩, hc.2⟩
    obtain ⟨d, k1, k2, k3⟩ := key
    have e : ((c :: calls).map SendCall.msg, ([] : List UInt8)).1.flatMap (echo N) = d :: (calls.map SendCall.msg).flatMap (echo N) := by
      simp [k1]
    rw [e]
    refine ⟨fun x hx => ?_, by rw [List.map_cons, List.map_cons, k2]; exact congrArg _ i2⟩
    rcases List.mem_cons.mp hx with rfl | hx
    · exact k3
    · exact i1 x hx

/-- **C82** (an echo server, at every moment). The client sends text and binary messages of at most `N` bytes. At every moment the messages its listener has been told completely are the first ones the client has sent,
in order. -/
theorem C82_echo (envA envB : Env) (fuelA fuelB lA BA lB BB : Nat) (a0 b0 a b : Endpoint) (logA logB : List Entry)
    (hA : a0.Listening envA fuelA lA BA) (hB : Server envB fuelB lB BB b0) (hfA : a0.Enough fuelA) (hfB : b0.Enough fuelB) (h : Linked envA envB a0 b0 logA logB a b)
    (hserA : Serialised logA) (hresA : Resigned logA) (N : Nat) (hN : N < 2 ^ 63) (hd : Data N (callsOf logA)) (hs : envB.Serves (echo N)) (h0 : b0.st.sock.trace = []) (ho : OnlyListener logB) (hresB : Resigned logB) :
    ∃ evs, a.st.sock.trace = a0.st.sock.trace ++ evs ∧ (reassemble [] evs).1 <+: (callsOf logA).map SendCall.msg := by
  obtain ⟨e1, e2⟩ := hd.echoed
  obtain ⟨evs, n, part, k1, k2⟩ := C82_service envA envB fuelA fuelB lA BA lB BB a0 b0 a b logA logB (echo N) hA hB hfA hfB h hserA hresA _ [] (List.append_nil _).symm (hd.speech hN) hs h0 ho hresB
    _ [] (List.append_nil _).symm (e1.speech hN)
  refine ⟨evs, k1, ?_⟩
  rw [k2.heard, ← e2, show (answersTo (echo N) (callsOf logA)).map SendCall.msg = (told [] (answersTo (echo N) (callsOf logA))).1 by rw [e1.told]]
  exact told_prefix (List.take_prefix ..)

/-- **C82** (an echo server sends everything back). The same client: when nobody can make a step any more, the connection still working and no send having failed, the client has heard exactly what it has sent. -/
theorem C82_echo_complete (envA envB : Env) (fuelA fuelB lA BA lB BB : Nat) (a0 b0 a b : Endpoint) (logA logB : List Entry)
    (hA : a0.Listening envA fuelA lA BA) (hB : Server envB fuelB lB BB b0) (hfA : a0.Enough fuelA) (hfB : b0.Enough fuelB) (h : Linked envA envB a0 b0 logA logB a b)
    (hserA : Serialised logA) (hokA : ∀ e ∈ logA, e.failed = false) (N : Nat) (hN : N < 2 ^ 63) (hd : Data N (callsOf logA)) (hs : envB.Serves (echo N)) (h0 : b0.st.sock.trace = []) (ho : OnlyListener logB)
    (hokB : ∀ e ∈ logB, e.failed = false)
    (hrA : a.AtRest envA) (hrB : b.AtRest envB) (hdA : a.Defined) (hdB : b.Defined) (hwA : a.Writable) (hwB : b.Writable) (hrdA : a.Readable) (hrdB : b.Readable)
    (hnA : Endpoint.Unbroken envA a0 a) (hnB : Endpoint.Unbroken envB b0 b) :
    ∃ evs, a.st.sock.trace = a0.st.sock.trace ++ evs ∧ HeardAll (callsOf logA) lA evs ∧ a.Waits := by
  obtain ⟨e1, e2⟩ := hd.echoed
  obtain ⟨evs, k1, k2, k3⟩ := C82_service_complete envA envB fuelA fuelB lA BA lB BB a0 b0 a b logA logB (echo N) hA hB hfA hfB h hserA hokA _ [] (List.append_nil _).symm (hd.speech hN) hs h0 ho hokB
    _ [] (List.append_nil _).symm (e1.speech hN) hrA hrB hdA hdB hwA hwB hrdA hrdB hnA hnB
  refine ⟨evs, k1, ⟨k2.to, ?_⟩, ?_⟩
  · rw [k2.heard, e1.told, e2]
  · rcases k3 with ⟨h, _⟩ | ⟨_, h⟩
    · exact h
    · exact absurd rfl h

/-- **C82** (there are services). For any `f` this listener answers with `f`. -/
theorem C82_serves (f : Msg → List SendCall) (env : Env) : (service f env).Serves f := by
  intro tr e
  have : ∀ cs : List SendCall, said (cs.map fun c => .send c true) = cs := by
    intro cs
    induction cs with
    | nil => rfl
    | cons c cs ih => show c :: said _ = _; rw [ih]
  show said (match (tr ++ [e]).getLast? with
    | some e' => ((completes (tr ++ [e]).dropLast e').flatMap f).map fun c => UserOp.send c true
    | none => []) = _
  rw [List.getLast?_append, List.dropLast_concat]
  exact this _

/-- **C82** (an echo server catches everything). If its messages are below 2 GiB, no callback of an echo server throws: C82_echo_complete applies to it. -/
theorem C82_echo_calm (N : Nat) (hN : N < 2 ^ 31) (env : Env) : (service (echo N) env).Calm := by
  intro tr op hop
  have hop : op ∈ (match tr.getLast? with
    | some e => ((completes tr.dropLast e).flatMap (echo N)).map fun c => UserOp.send c true
    | none => []) := hop
  split at hop
  · obtain ⟨c, hc, rfl⟩ := List.mem_map.mp hop
    obtain ⟨m, _, hm⟩ := List.mem_flatMap.mp hc
    refine ⟨rfl, Nat.lt_of_le_of_lt ?_ hN⟩
    cases m <;> simp only [echo] at hm <;> first | exact absurd hm List.not_mem_nil | (split at hm <;> first | exact absurd hm List.not_mem_nil | (rw [List.mem_singleton.mp hm]; assumption))
  · exact absurd hop List.not_mem_nil

/-! ## Example -/

def exEcho : Env := service (echo 1000) Fixture.env

/-- A client that sends a text and a binary message, and listens. -/
def exCaller : Endpoint := .threads
  ⟨[Threads.listenT Fixture.env 100 default, Threads.userOpsT Fixture.env 100 [.send (.text (some [7, 8, 9])) true, .send (.binary (some [0])) true]],
    { sock := { Sock.new { readBufferSize := 2, maskOutgoingMessages := true } ⟨[], Fixture.slow 30⟩ with listener := some 1 }, inp := ⟨[], Fixture.slow 24⟩ }⟩

def exInstalls : List UserOp := [.setListener (some 7), .setConfig { readBufferSize := 2 }]

def exEchoServer : Threads.Pool := Threads.newSession exEcho 100 exInstalls default [] [] ⟨[], Fixture.slow 40⟩ ⟨[], Fixture.slow 30⟩

/-- The text arrives in two parts; the echo of it goes out while the client sends the binary message. -/
def exEchoing := run Fixture.env exEcho (List.replicate 2 (false, 0) ++ List.replicate 25 (false, 1) ++ List.replicate 30 (true, 0) ++ List.replicate 30 (false, 1) ++
  List.replicate 60 (true, 0) ++ List.replicate 30 (false, 0) ++ List.replicate 60 (false, 1) ++ List.replicate 200 (true, 0) ++ List.replicate 100 (false, 0)) [] [] exCaller (.threads exEchoServer)

theorem exEchoing_caller : (restView Fixture.env exEchoing.1 exEchoing.2.2.1, resignedNow exEchoing.1) =
    (⟨⟨true, true, [.text (some [7, 8, 9]), .binary (some [0])], [], [.completed, .completed],
      [.readMessage 1 1 [7], .readMessage 1 1 [8], .readMessage 1 1 [9], .readMessage 1 1 [], .readMessage 1 2 [0], .readMessage 1 2 []], [], true⟩, true, true, true, true⟩, true) := by
  decide +kernel

theorem exEchoing_server : (restView exEcho exEchoing.2.1 exEchoing.2.2.2, resignedNow exEchoing.2.1, exEchoing.2.1.all fun e => e.called.isNone || e.task == 0) =
    (⟨⟨true, true, [.text (some [7, 8, 9]), .binary (some [0])], [.completed, .completed], [],
      [.readMessage 7 1 [7], .readMessage 7 1 [8], .readMessage 7 1 [9], .readMessage 7 1 [], .readMessage 7 2 [0], .readMessage 7 2 []], [], true⟩, true, true, true, true⟩, true, true) := by
  decide +kernel

theorem exCaller_listening : exCaller.Listening Fixture.env 100 1 2 := by
  refine ⟨⟨default, _, rfl, ?_⟩, fun _ _ h => (by cases h), by decide, ⟨⟨1, rfl, rfl⟩, rfl, fun _ _ => trivial, rfl⟩, rfl⟩
  intro q hq
  rw [List.mem_singleton] at hq
  subst hq
  refine .code _ fun op h => ?_
  simp only [List.mem_cons, List.not_mem_nil, or_false] at h
  rcases h with rfl | rfl <;> trivial

theorem exEchoServer_session : Threads.Session exEcho 100 7 2 exInstalls [] exEchoServer := by
  refine Threads.newSession_session exEcho 100 7 2 exInstalls [] default [] _ _ rfl rfl (by decide) (fun _ h => (by cases h)) (fun tr op h => ?_) (fun _ h => (by cases h))
  have h : op ∈ (match tr.getLast? with
    | some e => ((completes tr.dropLast e).flatMap (echo 1000)).map fun c => UserOp.send c true
    | none => []) := h
  split at h
  · obtain ⟨c, _, rfl⟩ := List.mem_map.mp h
    trivial
  · cases h

theorem exEchoServer_server : Server exEcho 100 7 2 (.threads exEchoServer) := by
  refine .session exEchoServer_session (fun op h => ?_) (fun _ h => (by cases h)) rfl rfl
  simp only [exInstalls, List.mem_cons, List.not_mem_nil, or_false] at h
  rcases h with rfl | rfl <;> trivial

/-- Everything comes back: the hypotheses of `C82_echo`, `C82_echo_complete` (and so of `C82_service`, `C82_service_complete`) and `C82_session_answers` are met. -/
example : ∃ a b logA logB, Linked Fixture.env exEcho exCaller (.threads exEchoServer) logA logB a b ∧ a.AtRest Fixture.env ∧ b.AtRest exEcho ∧
    callsOf logA = [.text (some [7, 8, 9]), .binary (some [0])] ∧ HeardAll (callsOf logA) 1 a.st.sock.trace ∧ a.Waits ∧
    (reassemble [] a.st.sock.trace).1 <+: (callsOf logA).map SendCall.msg ∧ reassemble [] a.st.sock.trace = ([.text [7, 8, 9], .binary [0]], []) ∧
    callsOf (logB.filter fun e => e.task == 0) <+: said exInstalls ++ replies exEcho [] b.st.sock.trace := by
  have hl : Linked Fixture.env exEcho exCaller (.threads exEchoServer) exEchoing.1 exEchoing.2.1 exEchoing.2.2.1 exEchoing.2.2.2 := by
    unfold exEchoing
    exact run_linked _ .refl
  have hA := exEchoing_caller
  have hB := exEchoing_server
  generalize exEchoing.1 = logA, exEchoing.2.1 = logB, exEchoing.2.2.1 = a, exEchoing.2.2.2 = b at hl hA hB
  injection hA with hA hra
  injection hA with hA ar ad aw al
  injection hA with a1 a2 a3 a4 a5 a6 a7 a8
  injection hB with hB hrb
  injection hrb with hrb hone
  injection hB with hB br bd bw bl
  injection hB with b1 b2 b3 b4 b5 b6 b7 b8
  have okA : ∀ e ∈ logA, e.failed = false := by
    intro e hm
    have := List.all_eq_true.mp a2 e hm
    simp at this
    exact this.1
  have okB : ∀ e ∈ logB, e.failed = false := by
    intro e hm
    have := List.all_eq_true.mp b2 e hm
    simp at this
    exact this.1
  have only : OnlyListener logB := by
    intro e hm hc
    have := List.all_eq_true.mp hone e hm
    cases h : e.called with
    | none => rw [h] at hc; cases hc
    | some c => simpa [h] using this
  have uA : Endpoint.Unbroken Fixture.env exCaller a := by
    obtain ⟨q, e, _⟩ := Fed.threads hl.fed.1
    subst e
    exact ⟨fun _ _ h => (by cases h), al, by decide⟩
  have uB : Endpoint.Unbroken exEcho (.threads exEchoServer) b := by
    obtain ⟨q, e, _⟩ := Fed.threads hl.fed.2
    subst e
    exact ⟨C82_echo_calm 1000 (by decide) _, bl, by decide⟩
  have fA : exCaller.Enough 100 := ⟨by decide, by decide⟩
  have fB : (Endpoint.threads exEchoServer).Enough 100 := ⟨by decide, by decide⟩
  have data : Data 1000 (callsOf logA) := by
    rw [a3]
    intro c hc
    simp only [List.mem_cons, List.not_mem_nil, or_false] at hc
    rcases hc with rfl | rfl
    · exact ⟨.inl ⟨_, rfl⟩, by decide⟩
    · exact ⟨.inr ⟨_, rfl⟩, by decide⟩
  obtain ⟨evs, g1, g2, g3⟩ := C82_echo_complete Fixture.env exEcho 100 100 1 2 7 2 exCaller (.threads exEchoServer) a b logA logB exCaller_listening exEchoServer_server fA fB hl
    (serialCheck_sound a1) okA 1000 (by decide) data (C82_serves _ _) rfl only okB (restNow_sound ar) (restNow_sound br) (definedNow_sound ad) (definedNow_sound bd) (worksNow_sound aw).1 (worksNow_sound bw).1
    (worksNow_sound aw).2 (worksNow_sound bw).2 uA uB
  obtain ⟨evs', k1, k2⟩ := C82_echo Fixture.env exEcho 100 100 1 2 7 2 exCaller (.threads exEchoServer) a b logA logB exCaller_listening exEchoServer_server fA fB hl
    (serialCheck_sound a1) (resignedNow_sound hra) 1000 (by decide) data (C82_serves _ _) rfl only (resignedNow_sound hrb)
  obtain ⟨evs'', m1, m2, -⟩ := C82_session_answers Fixture.env exEcho 100 7 2 exCaller a b exEchoServer exInstalls [] logA logB exEchoServer_session rfl hl
  have g1 : a.st.sock.trace = evs := g1
  have k1 : a.st.sock.trace = evs' := k1
  have m1 : b.st.sock.trace = evs'' := m1
  subst g1 k1 m1
  exact ⟨a, b, logA, logB, hl, restNow_sound ar, restNow_sound br, a3, g2, g3, k2, by rw [g2.2, a3]; rfl, m2⟩

/-- `C82_answers` for the tasks of `exPartsRun`: the listening task has called the pong of its one ping. -/
example : ∃ a b logA logB, Linked Fixture.env Async.exEnv exParts exServer logA logB a b ∧ callsOf (logB.filter fun e => e.task == 0) = replies Async.exEnv [] b.st.sock.trace ∧
    b.st.sock.trace ≠ [] := by
  have hl : Linked Fixture.env Async.exEnv exParts exServer exPartsRun.1 exPartsRun.2.1 exPartsRun.2.2.1 exPartsRun.2.2.2 := by
    unfold exPartsRun
    exact run_linked _ .refl
  have hB := exParts_server
  generalize exPartsRun.1 = logA, exPartsRun.2.1 = logB, exPartsRun.2.2.1 = a, exPartsRun.2.2.2 = b at hl hB
  injection hB with hB br bd bw bl
  injection hB with b1 b2 b3 b4 b5 b6 b7 b8
  obtain ⟨evs, g1, _, g2⟩ := C82_answers Fixture.env Async.exEnv 40 7 2 exParts exServer a b logA logB exServer_listening hl
  have g1 : b.st.sock.trace = evs := g1
  subst g1
  exact ⟨a, b, logA, logB, hl, g2 (.inl (Endpoint.waitsNow_waits b8)), by rw [b6]; exact fun h => by cases h⟩

end OatWS.Network
