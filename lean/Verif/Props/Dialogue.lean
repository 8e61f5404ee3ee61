import Verif.Proofs.Dialogue
import Verif.Spec.Together
/-! A client that sends from one task, and a server that answers: two async sockets, whose user code only sends and does not handle errors. -/

namespace OatWS.Network
open RFC6455 Async

/-- The client listens in one task and sends in another, the server answers with `f`; the client's listener answers with `g`, but none of the server's answers. -/
structure Dialogue (envA envB : Env) (lA BA lB BB : Nat) (ops : List UserOp) (f g : Msg → List SendCall) (pA pB : Async.Pool) : Prop where
  listensA : (Endpoint.tasks pA).Listening envA 0 lA BA
  listensB : (Endpoint.tasks pB).Listening envB 0 lB BB
  tasksA : ∃ h, pA.tasks = [.run (listenTask h), .run (userTask ops)]
  tasksB : ∃ h, pB.tasks = [.run (listenTask h)]
  plainA : PlainEnv envA
  plainB : PlainEnv envB
  plain : ∀ op ∈ ops, ∃ c, op = .send c false
  servesA : envA.Serves g
  servesB : envB.Serves f
  freshA : pA.world.st.sock.trace = []
  freshB : pB.world.st.sock.trace = []
  speech : ∃ cs last, said ops = cs ++ last ∧ Speech cs last
  answers : ∃ cs last, answersTo f (said ops) = cs ++ last ∧ Speech cs last
  silent : ∀ m ∈ (told [] (answersTo f (said ops))).1, g m = []

variable {envA envB : Env} {lA BA lB BB : Nat} {ops : List UserOp} {f g : Msg → List SendCall} {pA pB : Async.Pool}

theorem answersTo_prefix {f : Msg → List SendCall} {cs cs' : List SendCall} (h : cs <+: cs') : answersTo f cs <+: answersTo f cs' := flatMap_prefix (told_prefix h)

namespace Dialogue

theorem quietA (d : Dialogue envA envB lA BA lB BB ops f g pA pB) : ∀ t ∈ pA.tasks, Outcome.quiet t := d.listensA.2
theorem quietB (d : Dialogue envA envB lA BA lB BB ops f g pA pB) : ∀ t ∈ pB.tasks, Outcome.quiet t := d.listensB.2

theorem plainPoolA (d : Dialogue envA envB lA BA lB BB ops f g pA pB) : ∀ t, Outcome.run t ∈ pA.tasks → PlainStack t.stack := by
  obtain ⟨h, e⟩ := d.tasksA
  intro t ht
  rw [e] at ht
  simp only [List.mem_cons, Outcome.run.injEq, List.not_mem_nil, or_false] at ht
  rcases ht with rfl | rfl
  · intro c hc
    rw [List.mem_singleton.mp hc]
    trivial
  · intro c hc
    rw [List.mem_singleton.mp hc]
    exact ⟨rfl, d.plain⟩

theorem plainPoolB (d : Dialogue envA envB lA BA lB BB ops f g pA pB) : ∀ t, Outcome.run t ∈ pB.tasks → PlainStack t.stack := by
  obtain ⟨h, e⟩ := d.tasksB
  intro t ht
  rw [e] at ht
  simp only [List.mem_cons, Outcome.run.injEq, List.not_mem_nil, or_false] at ht
  subst ht
  intro c hc
  rw [List.mem_singleton.mp hc]
  trivial

theorem enoughA (d : Dialogue envA envB lA BA lB BB ops f g pA pB) : (Endpoint.tasks pA).Enough 0 := by
  obtain ⟨h, e⟩ := d.tasksA
  intro o ho
  rw [e] at ho
  simp only [List.mem_cons, List.not_mem_nil, or_false] at ho
  rcases ho with rfl | rfl <;> exact fun h => (by cases h)

theorem enoughB (d : Dialogue envA envB lA BA lB BB ops f g pA pB) : (Endpoint.tasks pB).Enough 0 := by
  obtain ⟨h, e⟩ := d.tasksB
  intro o ho
  rw [e] at ho
  simp only [List.mem_cons, List.not_mem_nil, or_false] at ho
  subst ho
  exact fun h => (by cases h)

theorem onlyListener (d : Dialogue envA envB lA BA lB BB ops f g pA pB) {logA logB : List Entry} {a b : Endpoint} (h : Linked envA envB (.tasks pA) (.tasks pB) logA logB a b) : OnlyListener logB := by
  obtain ⟨p, rfl, hq⟩ := h.fed.2.tasks
  obtain ⟨hh, e⟩ := d.tasksB
  intro x hx _
  have := hq.indices.2 x hx
  rw [e] at this
  simpa using this

/-- What the sender has called. -/
theorem sender (d : Dialogue envA envB lA BA lB BB ops f g pA pB) {logA : List Entry} {fed : List UInt8} {q : Async.Pool} (h : Async.Fed envA pA logA fed q) :
    ∃ o, q.tasks[1]? = some o ∧ Owing (said ops) (callsOf (logA.filter fun e => e.task == 1)) (failedOf 1 logA) o := by
  obtain ⟨hh, e⟩ := d.tasksA
  refine h.owing d.plainA (i := 1) (o0 := .run (userTask ops)) (by rw [e]; rfl) ⟨⟨fun _ u hu => absurd hu List.not_mem_nil, trivial⟩, fun c hc => ?_, fun c hc => ?_, ?_⟩
  · rw [List.mem_singleton.mp hc]; exact fun h => (by cases h)
  · rw [List.mem_singleton.mp hc]; exact ⟨rfl, d.plain⟩
  · show [] ++ owes [.user { ops }] = said ops
    simp [owes, Co.owes]

theorem owing_prefix {total cs : List SendCall} {b : Bool} {o : Outcome} (h : Owing total cs b o) : cs <+: total := by
  cases o with
  | run t => exact ⟨_, h.2.2.2⟩
  | finished => exact ⟨[], by rw [List.append_nil]; exact h⟩
  | failed e => exact h.1
  | ub u => exact h
  | blocked => exact h.elim

theorem filter_calls {log : List Entry} {i : Nat} (h : ∀ e ∈ log, e.called.isSome → e.task = i) : callsOf (log.filter fun e => e.task == i) = callsOf log := by
  unfold callsOf
  induction log with
  | nil => rfl
  | cons e log ih =>
    have ih := ih fun x hx => h x (List.mem_cons_of_mem _ hx)
    rw [List.filter_cons]
    split
    · rw [List.filterMap_cons, List.filterMap_cons, ih]
    · rename_i hne
      rw [ih, List.filterMap_cons]
      cases hc : e.called with
      | none => rfl
      | some c => exact absurd (h e (List.mem_cons_self ..) (by rw [hc]; rfl)) (by simpa using hne)

/-- At any moment, if only the sender has sent at the client. -/
theorem moment (d : Dialogue envA envB lA BA lB BB ops f g pA pB) {logA logB : List Entry} {a b : Endpoint} (h : Linked envA envB (.tasks pA) (.tasks pB) logA logB a b)
    (hone : ∀ e ∈ logA, e.called.isSome → e.task = 1) :
    callsOf logA <+: said ops ∧ callsOf logB <+: (reassemble [] b.st.sock.trace).1.flatMap f ∧ (∃ n part, HeardUpTo (callsOf logA) lB n part b.st.sock.trace) ∧ ∃ n part, HeardUpTo (callsOf logB) lA n part a.st.sock.trace := by
  obtain ⟨q, hqa, hq⟩ := h.fed.1.tasks
  obtain ⟨o, _, ho⟩ := d.sender hq
  have hpre : callsOf logA <+: said ops := by
    have := owing_prefix ho
    rwa [filter_calls hone] at this
  have hresA := hq.resigned d.plainA d.quietA d.plainPoolA hone
  obtain ⟨p, hpb, hp⟩ := h.fed.2.tasks
  have hol := d.onlyListener h
  have hresB := hp.resigned d.plainB d.quietB d.plainPoolB hol
  obtain ⟨cs, last, hcs, hsp⟩ := d.speech
  obtain ⟨cs1, last1, hc1, hsp1⟩ := Speech.prefix hsp (hcs ▸ hpre)
  obtain ⟨evsB, nB, partB, e1, e2⟩ := C71_any_moment envA envB 0 0 lB BB (.tasks pA) (.tasks pB) a b logA logB d.quietA d.listensB d.enoughB h (C69_one_sender _ ⟨1, hone⟩) hresA cs1 last1 hc1 hsp1
  have hb : b.st.sock.trace = evsB := by rw [e1]; show pB.world.st.sock.trace ++ evsB = evsB; rw [d.freshB]; rfl
  have hcal := (Server.answers (.listening d.listensB) h d.servesB d.freshB hol).1
  have hpreB : callsOf logB <+: answersTo f (said ops) := by
    refine (hcal.trans (flatMap_prefix ?_)).trans (answersTo_prefix hpre)
    rw [hb, e2.heard]
    exact told_prefix (List.take_prefix ..)
  obtain ⟨cs2, last2, hcs2, hsp2⟩ := d.answers
  obtain ⟨cs3, last3, hc3, hsp3⟩ := Speech.prefix hsp2 (hcs2 ▸ hpreB)
  obtain ⟨evs, n, part, k1, k2⟩ := C71_any_moment envB envA 0 0 lA BA (.tasks pB) (.tasks pA) b a logB logA d.quietB d.listensA d.enoughA h.swap (C69_one_sender _ ⟨0, hol⟩) hresB cs3 last3 hc3 hsp3
  have ha : a.st.sock.trace = evs := by rw [k1]; show pA.world.st.sock.trace ++ evs = evs; rw [d.freshA]; rfl
  exact ⟨hpre, hcal, ⟨nB, partB, hb ▸ e2⟩, n, part, ha ▸ k2⟩

/-- Only the sender sends at the client. -/
theorem oneSender (d : Dialogue envA envB lA BA lB BB ops f g pA pB) {logA logB : List Entry} {a b : Endpoint} (h : Linked envA envB (.tasks pA) (.tasks pB) logA logB a b) :
    ∀ e ∈ logA, e.called.isSome → e.task = 1 := by
  induction h with
  | refl => intro e he; cases he
  | right _ _ ih => exact ih
  | @left la lb a b e a' h hs ih =>
    intro x hx hcalled
    rcases List.mem_append.mp hx with hx | hx
    · exact ih x hx hcalled
    · rw [List.mem_singleton.mp hx] at hcalled ⊢
      obtain ⟨q, rfl, hq⟩ := h.fed.1.tasks
      cases hs with
      | @task _ i t o w' bs h1 h2 h3 h4 h5 =>
        obtain ⟨hh, eA⟩ := d.tasksA
        have hlen : i < 2 := by
          have := (List.getElem?_eq_some_iff.mp h1).1
          rw [hq.indices.1, eA] at this
          exact this
        rcases Nat.lt_or_ge i 1 with hi | hi
        · exfalso
          have hi : i = 0 := by omega
          subst hi
          obtain ⟨evs, o1, others', e1, e2, e3, -⟩ := hq.says (o0 := .run (listenTask hh)) (others := [.run (userTask ops)]) eA ⟨⟨fun _ u hu => absurd hu List.not_mem_nil, trivial⟩, rfl⟩ (by
            intro o ho
            rw [List.mem_singleton.mp ho]
            intro c hc
            rw [List.mem_singleton.mp hc]
            exact fun h => (by cases h))
          have hx : q.tasks[0]? = some o1 := by rw [e2]; rfl
          rw [hx] at h1
          injection h1 with h1
          subst h1
          rw [d.freshA] at e1 e3
          rw [List.nil_append] at e1
          obtain ⟨hpre, hcal, ⟨nB, partB, hhb⟩, n, part, hha⟩ := d.moment h ih
          have hrep : replies envA [] evs = [] := by
            rw [C82_replies envA g d.servesA, List.flatMap_eq_nil_iff]
            intro m hm
            refine d.silent m ?_
            have hha : HeardUpTo (callsOf lb) lA n part q.world.st.sock.trace := hha
            rw [e1] at hha
            rw [hha.heard] at hm
            refine (told_prefix ?_).subset hm
            refine (List.take_prefix ..).trans ((hcal.trans (flatMap_prefix ?_)).trans (answersTo_prefix hpre))
            rw [hhb.heard]
            exact told_prefix (List.take_prefix ..)
          have hq0 := e3.2
          rw [hrep] at hq0
          have howes := (List.append_eq_nil_iff.mp hq0).2
          have hcalled : t.calls.isSome := hcalled
          rcases t with ⟨_ | ⟨c, rest⟩, loc⟩
          · cases hcalled
          · have h1 := calls_top (t := ⟨c :: rest, loc⟩) rfl
            rw [owes_cons] at howes
            have h2 := (List.append_eq_nil_iff.mp howes).1
            cases c with
            | user u =>
              rcases u with ⟨ops'⟩
              cases ops' with
              | nil => cases hcalled
              | cons op ops' =>
                cases op with
                | send c b => cases h2
                | _ => cases hcalled
            | _ => cases hcalled
        · show i = 1
          omega

/-- When everything has come to rest, the sender has finished. -/
theorem sender_finished (d : Dialogue envA envB lA BA lB BB ops f g pA pB) {logA logB : List Entry} {a b : Endpoint} (h : Linked envA envB (.tasks pA) (.tasks pB) logA logB a b)
    (hr : Together.Rested envA envB (.tasks pA) (.tasks pB) logA logB a b) : ∃ q, a = .tasks q ∧ q.tasks[1]? = some .finished ∧ callsOf logA = said ops := by
  obtain ⟨q, rfl, hq⟩ := h.fed.1.tasks
  obtain ⟨o, ho, hO⟩ := d.sender hq
  rw [filter_calls (d.oneSender h)] at hO
  have hm := List.mem_of_getElem? ho
  cases o with
  | run t =>
    exfalso
    have hw : q.world.st.sock.out.sched ≠ [] := hr.takes.1
    rcases hq.rest d.quietA (fun i t o w' bs h1 h2 h3 h4 h5 => hr.rest.1 _ _ (.task h1 h2 h3 h4 h5)) 1 t ho with ⟨h1, _⟩ | ⟨_, h2⟩
    · rcases t with ⟨_ | ⟨c, rest⟩, l⟩
      · cases h1
      · have := hO.2.1 c (List.mem_cons_self ..)
        cases c <;> first | exact this rfl | cases h1
    · exact hw h2
  | finished => exact ⟨q, rfl, ho, hO⟩
  | failed e =>
    exfalso
    have := hO.2
    unfold failedOf at this
    rw [List.any_eq_true] at this
    obtain ⟨x, hx, hf⟩ := this
    rw [hr.sends.1 x (List.mem_filter.mp hx).1] at hf
    cases hf
  | ub u => exact absurd hm (hr.defined.1 u)
  | blocked => exact hO.elim

/-- When everything has come to rest, everything has been heard. -/
theorem complete (d : Dialogue envA envB lA BA lB BB ops f g pA pB) {logA logB : List Entry} {a b : Endpoint} (h : Linked envA envB (.tasks pA) (.tasks pB) logA logB a b)
    (hr : Together.Rested envA envB (.tasks pA) (.tasks pB) logA logB a b) {cs last cs' last' : List SendCall} (hc : said ops = cs ++ last) (ht : Speech cs last)
    (hc' : answersTo f (said ops) = cs' ++ last') (ht' : Speech cs' last') :
    HeardWhole (said ops) lB b.st.sock.trace ∧ ((b.Waits ∧ last = []) ∨ (b.Ended envB ∧ last ≠ [])) ∧
    HeardWhole (answersTo f (said ops)) lA a.st.sock.trace ∧ ((a.Waits ∧ last' = []) ∨ (a.Ended envA ∧ last' ≠ [])) := by
  obtain ⟨q, -, -, hall⟩ := d.sender_finished h hr
  have hser := C69_one_sender _ ⟨1, d.oneSender h⟩
  obtain ⟨evsB, e1, e2, e3⟩ := C71_all_heard envA envB 0 0 lB BB (.tasks pA) (.tasks pB) a b logA logB d.quietA d.listensB d.enoughA d.enoughB h hser hr.sends.1 cs last (hall.trans hc) ht
    hr.rest.1 hr.rest.2 hr.defined.1 hr.takes.1 hr.takes.2 hr.gives.2 hr.unbroken.2
  have hb : b.st.sock.trace = evsB := by rw [e1]; show pB.world.st.sock.trace ++ evsB = evsB; rw [d.freshB]; rfl
  obtain ⟨evs, k1, k2, k3⟩ := C82_service_complete envA envB 0 0 lA BA lB BB (.tasks pA) (.tasks pB) a b logA logB f d.listensA (.listening d.listensB) d.enoughA d.enoughB h hser hr.sends.1 cs last (hall.trans hc) ht
    d.servesB d.freshB (d.onlyListener h) hr.sends.2 cs' last' (by rw [hall]; exact hc') ht' hr.rest.1 hr.rest.2 hr.defined.1 hr.defined.2 hr.takes.1 hr.takes.2 hr.gives.1 hr.gives.2 hr.unbroken.1 hr.unbroken.2
  have ha : a.st.sock.trace = evs := by rw [k1]; show pA.world.st.sock.trace ++ evs = evs; rw [d.freshA]; rfl
  rw [hall] at e2 k2
  rw [ha, hb]
  exact ⟨e2, e3, k2, k3⟩

end Dialogue
end OatWS.Network
