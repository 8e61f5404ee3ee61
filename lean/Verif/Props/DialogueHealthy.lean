import Verif.Props.Dialogue
import Verif.Proofs.AsyncHealthy
/-! A dialogue over connections that do not fail. -/

namespace OatWS.Network
open RFC6455 Async

theorem atMost_append (xs ys : List SendCall) : atMost (xs ++ ys) = atMost xs + atMost ys := by
  induction xs with
  | nil => simp [atMost]
  | cons x xs ih => simp only [List.cons_append, atMost, ih]; omega

theorem atMost_prefix {xs ys : List SendCall} (h : xs <+: ys) : atMost xs ≤ atMost ys := by
  obtain ⟨zs, rfl⟩ := h
  rw [atMost_append]
  omega

theorem carried_length {env : Env} {c : SendCall} {f : Frame} (h : Carries env c f) : f.encode.length ≤ c.content.2.2.length + 14 := by
  have hk : (f.maskKey.getD []).length ≤ 4 := by
    rcases h.key with e | ⟨p, e⟩ <;> rw [e]
    · exact Nat.zero_le _
    · exact Nat.le_refl _
  have hl : ∀ n, (lengthField n).2.length ≤ 8 := by
    intro n
    unfold lengthField
    split
    · exact Nat.zero_le _
    · split <;> simp [bigEndian]
  have := hl f.payload.length
  unfold Frame.encode encodeHeader
  simp only [List.length_append, List.length_cons, List.length_nil, applyKey?_length]
  rw [h.payload] at this ⊢
  omega

theorem carryAll_length {env : Env} {cs : List SendCall} {F : List Frame} (h : CarryAll env cs F) : (wireOf F).length ≤ atMost cs := by
  induction cs generalizing F with
  | nil => cases F with
    | nil => exact Nat.zero_le _
    | cons => exact h.elim
  | cons c cs ih => cases F with
    | nil => exact h.elim
    | cons f F =>
      have h1 := carried_length h.1
      have h2 := ih h.2
      have : wireOf (f :: F) = f.encode ++ wireOf F := by simp [wireOf]
      rw [this, List.length_append]
      show _ ≤ c.content.2.2.length + 14 + atMost cs
      omega

theorem completes_sub {tr T : List Event} {e : Event} (h : tr ++ [e] <+: T) {m : Msg} (hm : m ∈ completes tr e) : m ∈ (reassemble [] T).1 := by
  obtain ⟨r, rfl⟩ := h
  rw [List.append_assoc, reassemble_append, reassemble_append]
  exact List.mem_append_right _ (List.mem_append_left _ hm)

theorem said_mem {ops : List UserOp} (hp : ∀ op ∈ ops, ∃ c, op = .send c false) {c : SendCall} (h : UserOp.send c false ∈ ops) : c ∈ said ops := by
  induction ops with
  | nil => cases h
  | cons op ops ih =>
    obtain ⟨x, rfl⟩ := hp _ (List.mem_cons_self ..)
    show c ∈ x :: said ops
    rcases List.mem_cons.mp h with h | h
    · injection h with h
      rw [h]
      exact List.mem_cons_self ..
    · exact List.mem_cons_of_mem _ (ih (fun op hop => hp op (List.mem_cons_of_mem _ hop)) h)

/-- What callbacks start. -/
theorem reacts_plain {env : Env} {f : Msg → List SendCall} {T : List Event} {B : Int} (hp : PlainEnv env) (hs : env.Serves f) (hb : ∀ c ∈ (reassemble [] T).1.flatMap f, c.content.2.2.length < 2 ^ 31) :
    ∀ tr, tr <+: T → tr ≠ [] → ∀ op ∈ env.react tr, op.Proper B := by
  intro tr htr hne op hop
  obtain ⟨tr', e, rfl⟩ : ∃ tr' e, tr = tr' ++ [e] := ⟨tr.dropLast, tr.getLast hne, (List.dropLast_concat_getLast hne).symm⟩
  obtain ⟨c, rfl⟩ := hp _ op hop
  refine ⟨hb c ?_, fun h => (by cases h)⟩
  have hc : c ∈ said (env.react (tr' ++ [e])) := said_mem (hp _) hop
  rw [hs] at hc
  obtain ⟨m, hm, hc⟩ := List.mem_flatMap.mp hc
  exact List.mem_flatMap.mpr ⟨m, completes_sub htr hm, hc⟩

/-- A listening task does not refuse what another endpoint of this library says. -/
theorem unrefused {env envA : Env} {p0 p : Async.Pool} {log : List Entry} {sent : List UInt8} (hfed : Async.Fed env p0 log sent p) {l : Nat} {B : Int} (hB : Async.Listening env l B p0)
    {cs last : List SendCall} (ht : Speech cs last) {F : List Frame} (hF : CarryAll envA (cs ++ last) F) (hpre : sent <+: wireOf F) {e : AErr} (he : p.tasks[0]? = some (.failed e)) : ¬ Refused e := by
  rintro ⟨err, rfl, hprot⟩
  obtain ⟨used, hlog⟩ := hfed.logged [] []
  obtain ⟨hd, others, hts, hoth⟩ := hB.tasks
  rw [hB.nothing, List.nil_append, List.append_nil, List.append_nil, List.append_nil] at hlog
  have hsteps : Pool.Steps env ⟨.run (listenTask hd) :: others, p0.world.setInp ⟨sent, used⟩⟩ (withInp p p.world.st.inp.bytes []) := by
    have := logged_steps hlog
    unfold withInp at this
    rw [hts] at this
    exact this
  obtain ⟨out, ts, e1, -, hx⟩ := pool_exec hoth hsteps
  have hok := listening_ok (w0 := p0.world.setInp ⟨sent, used⟩) (o0 := false) hB.callbacks hd hB.noMessage hB.start hx
  have e1 : p.tasks = out :: ts := e1
  have h0 : p.tasks[0]? = some out := by rw [e1]; rfl
  rw [h0] at he
  injection he with he
  subst he
  rcases hok with ⟨r, h1, got, ds, evs, h2, -, h3, -⟩ | ⟨h1, -⟩
  · have h2 : sent = got ++ p.world.st.inp.bytes := h2
    have hg : got <+: wireOf F := by
      refine List.IsPrefix.trans ?_ hpre
      rw [h2]
      exact List.prefix_append _ _
    have hri : r ≠ .interrupted := by
      rintro rfl
      rcases h1 with h1 | h1
      · cases h1
      · injection h1 with h1; subst h1; exact hprot
    have hrc : r ≠ .incomplete := by
      rintro rfl
      rcases h1 with h1 | h1
      · cases h1
      · injection h1 with h1; subst h1; exact hprot
    obtain ⟨k, hfl, hk⟩ := Threads.fitAll_flow ht.fits ht.ends
    rcases hfl.shape ht.small hF with ⟨e, el⟩ | ⟨F', f, o', e, ha, hv, hacc, h8⟩
    · subst e
      rw [show wireOf [] = [] from rfl] at hg
      rw [List.prefix_nil.mp hg] at h3
      exact hrc h3.nil.2
    · subst e
      rcases h3.prefix_reason ha hv hacc hg hri with h | h | ⟨h, -⟩
      · exact hrc h
      · subst h; exact h1
      · subst h; exact h1
  · injection h1 with h1
    subst h1
    exact hprot

/-- The bytes written. -/
theorem wrote_all {env : Env} {p q : Async.Pool} {log : List Entry} {fed : List UInt8} (h : Async.Fed env p log fed q) (hp : ∀ t ∈ p.tasks, Outcome.quiet t) :
    q.world.st.sock.out.written = p.world.st.sock.out.written ++ log.flatMap Entry.wrote := by
  obtain ⟨used, hl⟩ := h.logged [] []
  have hp : ∀ t ∈ (withInp p (p.world.st.inp.bytes ++ fed ++ []) (used ++ [])).tasks, Outcome.quiet t := hp
  exact (C56_every_send env _ hp log _ hl).2

theorem spent_left {n : Nat} {s used s' : List IoOutcome} (h : n + 1 ≤ s.countP IoOutcome.moves) (e : s = used ++ s') (hu : used.countP IoOutcome.moves ≤ n) : s' ≠ [] := by
  rintro rfl
  rw [e, List.append_nil] at h
  omega

variable {envA envB : Env} {lA BA lB BB : Nat} {ops : List UserOp} {f g : Msg → List SendCall} {pA pB : Async.Pool}

/-- Neither connection fails; none of the messages is too long. -/
structure Dialogue.Healthy (ops : List UserOp) (f : Msg → List SendCall) (pA pB : Async.Pool) : Prop where
  fineA : pA.world.Fine
  fineB : pB.world.Fine
  short : ∀ c ∈ said ops, c.content.2.2.length < 2 ^ 31
  short' : ∀ c ∈ answersTo f (said ops), c.content.2.2.length < 2 ^ 31

namespace Dialogue

/-- The calls, and what is on the wire. -/
theorem wires (d : Dialogue envA envB lA BA lB BB ops f g pA pB) {logA logB : List Entry} {a b : Endpoint} (h : Linked envA envB (.tasks pA) (.tasks pB) logA logB a b) :
    callsOf logA <+: said ops ∧ callsOf logB <+: answersTo f (said ops) ∧ (∃ F, CarryAll envA (callsOf logA) F ∧ logA.flatMap Entry.wrote <+: wireOf F) ∧ (∃ F, CarryAll envB (callsOf logB) F ∧ logB.flatMap Entry.wrote <+: wireOf F) ∧
      (∃ cs last, callsOf logA = cs ++ last ∧ Speech cs last) ∧ (∃ cs last, callsOf logB = cs ++ last ∧ Speech cs last) ∧
      (reassemble [] a.st.sock.trace).1.flatMap g = [] ∧ (reassemble [] b.st.sock.trace).1.flatMap f <+: answersTo f (said ops) := by
  have hone := d.oneSender h
  obtain ⟨h1, h2, ⟨n, part, h3⟩, n', part', h4⟩ := d.moment h hone
  have h5 : (reassemble [] b.st.sock.trace).1.flatMap f <+: answersTo f (said ops) := by
    refine (flatMap_prefix ?_).trans (answersTo_prefix h1)
    rw [h3.heard]
    exact told_prefix (List.take_prefix ..)
  have h6 := h2.trans h5
  obtain ⟨q, hqa, hq⟩ := h.fed.1.tasks
  have hresA := hq.resigned d.plainA d.quietA d.plainPoolA hone
  obtain ⟨p, hpb, hp⟩ := h.fed.2.tasks
  have hol := d.onlyListener h
  have hresB := hp.resigned d.plainB d.quietB d.plainPoolB hol
  obtain ⟨cs, last, hcs, hsp⟩ := d.speech
  obtain ⟨cs1, last1, hc1, hsp1⟩ := Speech.prefix hsp (hcs ▸ h1)
  obtain ⟨cs2, last2, hcs2, hsp2⟩ := d.answers
  obtain ⟨cs3, last3, hc3, hsp3⟩ := Speech.prefix hsp2 (hcs2 ▸ h6)
  refine ⟨h1, h6, ?_, ?_, ⟨cs1, last1, hc1, hsp1⟩, ⟨cs3, last3, hc3, hsp3⟩, ?_, h5⟩
  · exact h.fed.1.sent_some (fuel := 0) d.quietA (C69_one_sender _ ⟨1, hone⟩) hresA (by rw [hc1]; exact hsp1.small)
  · exact h.fed.2.sent_some (fuel := 0) d.quietB (C69_one_sender _ ⟨0, hol⟩) hresB (by rw [hc3]; exact hsp3.small)
  · rw [List.flatMap_eq_nil_iff]
    intro m hm
    refine d.silent m ?_
    rw [h4.heard] at hm
    exact (told_prefix ((List.take_prefix ..).trans h6)).subset hm

/-- At any moment, nothing has failed. -/
theorem healthy (d : Dialogue envA envB lA BA lB BB ops f g pA pB) (hh : Healthy ops f pA pB) {logA logB : List Entry} {a b : Endpoint} (h : Linked envA envB (.tasks pA) (.tasks pB) logA logB a b) :
    ((∀ e ∈ logA, e.failed = false) ∧ ∀ e ∈ logB, e.failed = false) ∧ (a.Defined ∧ b.Defined) ∧ (Endpoint.Unbroken envA (.tasks pA) a ∧ Endpoint.Unbroken envB (.tasks pB) b) ∧
      (∀ q, a = .tasks q → ∀ o ∈ q.tasks, ∀ e, o ≠ .failed e) ∧ (∀ q, b = .tasks q → ∀ o ∈ q.tasks, ∀ e, o ≠ .failed e) ∧
      (atMost (said ops) + 1 ≤ pA.world.st.sock.out.sched.countP IoOutcome.moves → a.Writable) ∧ (atMost (answersTo f (said ops)) + 1 ≤ pB.world.st.sock.out.sched.countP IoOutcome.moves → b.Writable) ∧
      (atMost (answersTo f (said ops)) + 1 ≤ pA.world.st.inp.sched.countP IoOutcome.moves → a.Readable) ∧ (atMost (said ops) + 1 ≤ pB.world.st.inp.sched.countP IoOutcome.moves → b.Readable) := by
  obtain ⟨h1, h2, ⟨FA, h3, h3'⟩, ⟨FB, h4, h4'⟩, ⟨csA, lastA, h5, h5'⟩, ⟨csB, lastB, h6, h6'⟩, h7, h8⟩ := d.wires h
  have hone := d.oneSender h
  obtain ⟨qa, rfl, hqa⟩ := h.fed.1.tasks
  obtain ⟨qb, rfl, hqb⟩ := h.fed.2.tasks
  obtain ⟨hA, eA⟩ := d.tasksA
  obtain ⟨hB, eB⟩ := d.tasksB
  have lA := d.listensA.1
  have lB := d.listensB.1
  have sA : ∀ o ∈ pA.tasks, o.Sane BA := by
    intro o ho
    rw [eA] at ho
    simp only [List.mem_cons, List.not_mem_nil, or_false] at ho
    rcases ho with rfl | rfl
    · intro c hc; rw [List.mem_singleton.mp hc]; trivial
    · intro c hc
      rw [List.mem_singleton.mp hc]
      intro op hop
      obtain ⟨x, rfl⟩ := d.plain op hop
      exact ⟨hh.short x (said_mem d.plain hop), fun h => (by cases h)⟩
  have sB : ∀ o ∈ pB.tasks, o.Sane BB := by
    intro o ho
    rw [eB] at ho
    rw [List.mem_singleton.mp ho]
    intro c hc; rw [List.mem_singleton.mp hc]; trivial
  obtain ⟨k1, -, -, k2, ⟨uo, k3, k4⟩, ui, k5, k6⟩ := hqa.healthy (B := BA) lA.size sA lA.start.2 hh.fineA (reacts_plain d.plainA d.servesA (by
    intro c hc
    have h7 : (reassemble [] qa.world.st.sock.trace).1.flatMap g = [] := h7
    rw [h7] at hc
    cases hc))
  obtain ⟨m1, -, -, m2, ⟨vo, m3, m4⟩, vi, m5, m6⟩ := hqb.healthy (B := BB) lB.size sB lB.start.2 hh.fineB (reacts_plain d.plainB d.servesB fun c hc => hh.short' c (h8.subset hc))
  have nA : qa.tasks.length = 2 := by rw [hqa.indices.1, eA]; rfl
  have nB : qb.tasks.length = 1 := by rw [hqb.indices.1, eB]; rfl
  have fA : ∀ e, qa.tasks[0]? ≠ some (.failed e) := fun e he => unrefused hqa lA h6' (h6 ▸ h4) h4' he (k1 _ (List.mem_of_getElem? he))
  have fB : ∀ e, qb.tasks[0]? ≠ some (.failed e) := fun e he => unrefused hqb lB h5' (h5 ▸ h3) h3' he (m1 _ (List.mem_of_getElem? he))
  have fS : ∀ e, qa.tasks[1]? ≠ some (.failed e) := by
    intro e he
    obtain ⟨o, ho, hO⟩ := d.sender hqa
    rw [he] at ho
    injection ho with ho
    subst ho
    have := hO.2
    unfold failedOf at this
    rw [List.any_eq_true] at this
    obtain ⟨x, hx, hf⟩ := this
    rw [k2 x (List.mem_filter.mp hx).1] at hf
    cases hf
  have bA : ∀ o ∈ qa.tasks, o ≠ .blocked := hqa.not_blocked d.enoughA
  have bB : ∀ o ∈ qb.tasks, o ≠ .blocked := hqb.not_blocked d.enoughB
  have wa := wrote_all hqa d.quietA
  have wb := wrote_all hqb d.quietB
  have cA : (logA.flatMap Entry.wrote).length ≤ atMost (said ops) := Nat.le_trans (Nat.le_trans h3'.length_le (carryAll_length h3)) (atMost_prefix h1)
  have cB : (logB.flatMap Entry.wrote).length ≤ atMost (answersTo f (said ops)) := Nat.le_trans (Nat.le_trans h4'.length_le (carryAll_length h4)) (atMost_prefix h2)
  rw [wa, List.length_append] at k4
  rw [wb, List.length_append] at m4
  rw [lA.nothing] at k6
  rw [lB.nothing] at m6
  have e0 : ([] : List UInt8).length = 0 := rfl
  refine ⟨⟨k2, m2⟩, ⟨fun u hu => k1 _ hu, fun u hu => m1 _ hu⟩, ⟨?_, ?_⟩, ?_, ?_, fun hx => spent_left hx k3 (by omega), fun hx => spent_left hx m3 (by omega), fun hx => spent_left hx k5 (by omega), fun hx => spent_left hx m5 (by omega)⟩
  · show (∃ t, qa.tasks[0]? = some (.run t)) ∨ qa.tasks[0]? = some .finished
    cases e : qa.tasks[0]? with
    | none => rw [List.getElem?_eq_none_iff] at e; omega
    | some o =>
      cases o with
      | run t => exact .inl ⟨t, rfl⟩
      | finished => exact .inr rfl
      | failed x => exact absurd e (fA x)
      | ub u => exact (k1 _ (List.mem_of_getElem? e)).elim
      | blocked => exact absurd rfl (bA _ (List.mem_of_getElem? e))
  · show (∃ t, qb.tasks[0]? = some (.run t)) ∨ qb.tasks[0]? = some .finished
    cases e : qb.tasks[0]? with
    | none => rw [List.getElem?_eq_none_iff] at e; omega
    | some o =>
      cases o with
      | run t => exact .inl ⟨t, rfl⟩
      | finished => exact .inr rfl
      | failed x => exact absurd e (fB x)
      | ub u => exact (m1 _ (List.mem_of_getElem? e)).elim
      | blocked => exact absurd rfl (bB _ (List.mem_of_getElem? e))
  · intro q hq o ho e he
    injection hq with hq
    subst hq he
    obtain ⟨i, hi, he⟩ := List.mem_iff_getElem.mp ho
    have he := List.getElem?_eq_some_iff.mpr ⟨hi, he⟩
    rcases i with _ | _ | i
    · exact fA e he
    · exact fS e he
    · omega
  · intro q hq o ho e he
    injection hq with hq
    subst hq he
    obtain ⟨i, hi, he⟩ := List.mem_iff_getElem.mp ho
    have he := List.getElem?_eq_some_iff.mpr ⟨hi, he⟩
    rcases i with _ | i
    · exact fB e he
    · omega

end Dialogue
end OatWS.Network
