import Verif.Spec.Answers
import Verif.Props.EndToEnd
/-! # Answering from inside callbacks does not disturb receiving -/

namespace OatWS
open RFC6455

/-- Equal but for the output side and the random source. -/
def Alike (s s0 : Sock) : Prop := s = { s0 with out := s.out, rngPos := s.rngPos }

theorem Alike.refl (s : Sock) : Alike s s := rfl

def wlen (env : Env) (s : Sock) (cs : List SendCall) : Nat := (wireOf (framesFrom env s.config.maskOutgoingMessages s.rngPos cs)).length

/-- From `s` to `s'` exactly the frames of the calls `cs` were written. -/
structure Ans (env : Env) (s s' : Sock) (cs : List SendCall) : Prop where
  written : s'.out.written = s.out.written ++ wireOf (framesFrom env s.config.maskOutgoingMessages s.rngPos cs)
  rng : s'.rngPos = s.rngPos + if s.config.maskOutgoingMessages then 4 * cs.length else 0
  config : s'.config = s.config
  healthy : ∀ n, Healthy (wlen env s cs + n) s.out.sched → Healthy n s'.out.sched

theorem framesFrom_at (env : Env) (m : Bool) (p n : Nat) (cs : List SendCall) :
    framesFrom env m (p + 4 * n) cs = framesFrom env m (p + if m then 4 * n else 0) cs := by
  cases m
  · exact framesFrom_unmasked _ _ _ _
  · rfl

theorem wire_append (env : Env) (s s1 : Sock) (cs ds : List SendCall) (h : Ans env s s1 cs) :
    wireOf (framesFrom env s.config.maskOutgoingMessages s.rngPos (cs ++ ds)) =
      wireOf (framesFrom env s.config.maskOutgoingMessages s.rngPos cs) ++ wireOf (framesFrom env s1.config.maskOutgoingMessages s1.rngPos ds) := by
  rw [framesFrom_append, wireOf_append, framesFrom_at, h.rng, h.config]

theorem wlen_append {env : Env} {s s1 : Sock} {cs ds : List SendCall} (h : Ans env s s1 cs) :
    wlen env s (cs ++ ds) = wlen env s cs + wlen env s1 ds := by
  unfold wlen
  rw [wire_append env s s1 cs ds h, List.length_append]

/-- The length of the first part does not depend on what comes behind. -/
theorem wlen_le (env : Env) (s : Sock) (cs ds : List SendCall) : wlen env s cs ≤ wlen env s (cs ++ ds) := by
  unfold wlen
  rw [framesFrom_append, wireOf_append, List.length_append]
  omega

theorem Ans.nil (env : Env) {s s' : Sock} (h1 : s'.out = s.out) (h2 : s'.rngPos = s.rngPos) (h3 : s'.config = s.config) : Ans env s s' [] :=
  ⟨by rw [h1]; simp [framesFrom, wireOf], by rw [h2]; simp, h3, fun n h => by rw [h1]; simpa [wlen, framesFrom, wireOf] using h⟩

theorem Ans.trans {env : Env} {s s1 s2 : Sock} {cs ds : List SendCall} (h : Ans env s s1 cs) (h' : Ans env s1 s2 ds) :
    Ans env s s2 (cs ++ ds) := by
  refine ⟨?_, ?_, h'.config.trans h.config, fun n hn => ?_⟩
  · rw [h'.written, h.written, wire_append env s s1 cs ds h, List.append_assoc]
  · rw [h'.rng, h.rng, h.config, List.length_append]
    split <;> omega
  · rw [wlen_append h, Nat.add_assoc] at hn
    exact h'.healthy n (h.healthy _ hn)

theorem Ans.of_out {env : Env} {s s' t t' : Sock} {cs} (h : Ans env s s' cs) (h1 : t.out = s.out) (h2 : t.rngPos = s.rngPos)
    (h3 : t.config = s.config) (h1' : t'.out = s'.out) (h2' : t'.rngPos = s'.rngPos) (h3' : t'.config = s'.config) : Ans env t t' cs := by
  refine ⟨by rw [h1, h1', h2, h3]; exact h.written, by rw [h2', h2, h3]; exact h.rng, by rw [h3', h3]; exact h.config, fun n hn => ?_⟩
  rw [h1']
  refine h.healthy n ?_
  unfold wlen at hn ⊢
  rw [h1, h2, h3] at hn
  exact hn

theorem send_healthy (env : Env) (c : SendCall) (s : Sock) (hc : c.content.2.2.length < 2 ^ 31)
    (hh : Healthy (wlen env s [c]) s.out.sched) :
    ∃ s', send env c s = (.ret (), s') ∧ Alike s' s ∧ Ans env s s' [c] := by
  have hd : s.drawn.out = s.out := by unfold Sock.drawn; split <;> rfl
  have hl : wlen env s [c] = (callFrame env s.config.maskOutgoingMessages s.rngPos c).encode.length := by
    simp [wlen, framesFrom, wireOf, callFrame]
  have hlt : (2 : Nat) ^ 31 < 2 ^ 63 := by decide
  have hw : ∀ sc, (∀ n, Healthy (wlen env s [c] + n) s.out.sched → Healthy n sc) →
      Alike (s.drawn.wrote (callFrame env s.config.maskOutgoingMessages s.rngPos c).encode sc) s ∧
      Ans env s (s.drawn.wrote (callFrame env s.config.maskOutgoingMessages s.rngPos c).encode sc) [c] := by
    intro sc hsc
    refine ⟨?_, ?_, ?_, ?_, hsc⟩
    · unfold Alike Sock.drawn Sock.wrote; split <;> rfl
    · simp only [Sock.wrote, hd]
      simp [framesFrom, wireOf, callFrame]
    · unfold Sock.drawn Sock.wrote; split <;> simp [*]
    · unfold Sock.drawn Sock.wrote; split <;> rfl
  have hmov : ∀ sc, (∀ m, Healthy (wlen env s [c] + m) s.out.sched → Healthy m sc) → True := fun _ _ => trivial
  by_cases hone : ∃ fin op m, c = .oneFrame fin op m
  · obtain ⟨fin, op, m, rfl⟩ := hone
    have hS := sendOneFrame_sent env fin op m s (Nat.lt_trans hc hlt) (fun _ => hc)
    have he : (frameFor env s fin op m).encode = (callFrame env s.config.maskOutgoingMessages s.rngPos (.oneFrame fin op m)).encode := rfl
    obtain ⟨sc, _, e⟩ := hS.live 0 (by rw [hd, he, ← hl]; exact hh)
    have hsc : ∀ n, Healthy (wlen env s [SendCall.oneFrame fin op m] + n) s.out.sched → Healthy n sc := by
      intro n hn
      obtain ⟨sc', h', e'⟩ := hS.live n (by rw [hd, he, ← hl]; exact hn)
      rw [e] at e'
      injection e' with _ e'
      have := congrArg (fun s => s.out.sched) e'
      simp only [Sock.wrote] at this
      rw [this]; exact h'
    refine ⟨_, ?_, hw sc hsc⟩
    show (P.bind (sendOneFrame env fin op m) fun _ => Pure.pure ()) s = _
    rw [P.bind_apply, e]; rfl
  · have hone : ∀ fin op m, c ≠ .oneFrame fin op m := fun fin op m e => hone ⟨fin, op, m, e⟩
    obtain ⟨hsend, hfin⟩ := send_wrapper env c hone
    have hS := sendOrStop_sent env c.content.2.1 (some c.content.2.2) s (Nat.lt_trans hc hlt) (fun _ => hc)
    have he : (frameFor env s true c.content.2.1 (some c.content.2.2)).encode =
        (callFrame env s.config.maskOutgoingMessages s.rngPos c).encode := by
      unfold callFrame; rw [hfin]; rfl
    obtain ⟨sc, _, e⟩ := hS.live 0 (by rw [hd, he, ← hl]; exact hh)
    have hsc : ∀ n, Healthy (wlen env s [c] + n) s.out.sched → Healthy n sc := by
      intro n hn
      obtain ⟨sc', h', e'⟩ := hS.live n (by rw [hd, he, ← hl]; exact hn)
      rw [e] at e'
      injection e' with _ e'
      have := congrArg (fun s => s.out.sched) e'
      simp only [Sock.wrote] at this
      rw [this]; exact h'
    refine ⟨_, ?_, hw sc hsc⟩
    rw [hsend, e, he]

theorem ops_two (env : Env) (ops : List UserOp) (ht : ∀ op ∈ ops, op.tame) (hs : ∀ c b, UserOp.send c b ∈ ops → c.content.2.2.length < 2 ^ 31)
    (s s0 : Sock) (ha : Alike s s0) (hh : Healthy (wlen env s (sendsOf ops)) s.out.sched) :
    ∃ x s' s0', runUserOps env ops s = (x, s') ∧ runUserOps env.silent (ops.filter fun op => !op.isSend) s0 = (x, s0') ∧ Alike s' s0' ∧
      Ans env s s' (sendsOf ops) ∧ s0'.trace = s0.trace ∧ s0'.config = s0.config := by
  induction ops generalizing s s0 with
  | nil => exact ⟨_, s, s0, rfl, rfl, ha, .nil env rfl rfl rfl, rfl, rfl⟩
  | cons op ops ih =>
    have ih := ih (fun o ho => ht o (by simp [ho])) (fun c b h => hs c b (by simp [h]))
    cases op with
    | setListener l => exact (ht (.setListener l) (by simp)).elim
    | setConfig c => exact (ht (.setConfig c) (by simp)).elim
    | throw => exact ⟨.throw .user, s, s0, rfl, rfl, ha, .nil env rfl rfl rfl, rfl, rfl⟩
    | stopListening =>
      have ha' : Alike { s with listening := false } { s0 with listening := false } := by
        unfold Alike at ha ⊢; rw [ha]
      obtain ⟨x, s', s0', e, e0, h1, h2, h3, h4⟩ := ih { s with listening := false } { s0 with listening := false } ha' hh
      exact ⟨x, s', s0', e, e0, h1, h2.of_out rfl rfl rfl rfl rfl rfl, h3, h4⟩
    | send c b =>
      have hle := wlen_le env s [c] (sendsOf ops)
      obtain ⟨s1, e1, h1, h2⟩ := send_healthy env c s (hs c b (by simp)) (hh.mono hle)
      have ha' : Alike s1 s0 := by
        unfold Alike at *
        rw [h1, ha]
      have hh' : Healthy (wlen env s1 (sendsOf ops)) s1.out.sched := by
        refine h2.healthy _ ?_
        rw [← wlen_append h2]
        exact hh
      obtain ⟨x, s', s0', e, e0, g1, g2, g3, g4⟩ := ih s1 s0 ha' hh'
      refine ⟨x, s', s0', ?_, e0, g1, h2.trans g2, g3, g4⟩
      show P.bind (runUserOp env (.send c b)) (fun _ => runUserOps env ops) s = _
      rw [P.bind_apply]
      have : runUserOp env (.send c b) s = (.ret (), s1) := by
        unfold runUserOp; simp only [e1]
      rw [this]
      exact e

/-- `m` does what `m0` does, and writes the answers to the callbacks. -/
def Two {α} (env : Env) (m m0 : P St α) : Prop := ∀ st st0 : St, Alike st.sock st0.sock → st.inp = st0.inp →
  ∃ evs, (m0 st0).2.sock.trace = st0.sock.trace ++ evs ∧ (Healthy (wlen env st.sock (answers env st.sock.trace evs)) st.sock.out.sched →
    (m st).1 = (m0 st0).1 ∧ Alike (m st).2.sock (m0 st0).2.sock ∧ (m st).2.inp = (m0 st0).2.inp ∧
    Ans env st.sock (m st).2.sock (answers env st.sock.trace evs))

theorem Alike.trace {s s0 : Sock} (h : Alike s s0) : s.trace = s0.trace := by rw [h]
theorem Alike.listener {s s0 : Sock} (h : Alike s s0) : s.listener = s0.listener := by rw [h]
theorem Alike.config {s s0 : Sock} (h : Alike s s0) : s.config = s0.config := by rw [h]
theorem Alike.lastOpcode {s s0 : Sock} (h : Alike s s0) : s.lastOpcode = s0.lastOpcode := by rw [h]
theorem Alike.listening {s s0 : Sock} (h : Alike s s0) : s.listening = s0.listening := by rw [h]

theorem answers_append (env : Env) (tr a b : List Event) : answers env tr (a ++ b) = answers env tr a ++ answers env (tr ++ a) b := by
  induction a generalizing tr with
  | nil => simp [answers]
  | cons e a ih => simp [answers, ih, List.append_assoc]

/-- A program that neither calls back nor looks at the output side. -/
theorem Two.plain {α} {env : Env} {m m0 : P St α} (h : ∀ st st0 : St, Alike st.sock st0.sock → st.inp = st0.inp →
    (m st).1 = (m0 st0).1 ∧ Alike (m st).2.sock (m0 st0).2.sock ∧ (m st).2.inp = (m0 st0).2.inp ∧
    (m0 st0).2.sock.trace = st0.sock.trace ∧ (m st).2.sock.out = st.sock.out ∧ (m st).2.sock.rngPos = st.sock.rngPos ∧
    (m st).2.sock.config = st.sock.config) : Two env m m0 := by
  intro st st0 ha hi
  obtain ⟨h1, h2, h3, h4, h5, h6, h7⟩ := h st st0 ha hi
  exact ⟨[], by simp [h4], fun _ => ⟨h1, h2, h3, .nil env h5 h6 h7⟩⟩

theorem Two.pure {α} (env : Env) (a : α) : Two env (Pure.pure a : P St α) (Pure.pure a) :=
  .plain fun _ _ ha hi => ⟨rfl, ha, hi, rfl, rfl, rfl, rfl⟩
theorem Two.fail {α} (env : Env) (e : Err) : Two env (P.fail e : P St α) (P.fail e) :=
  .plain fun _ _ ha hi => ⟨rfl, ha, hi, rfl, rfl, rfl, rfl⟩

theorem Two.bind {α β} {env : Env} {m m0 : P St α} {f f0 : α → P St β} (h : Two env m m0) (h' : ∀ a, Two env (f a) (f0 a)) :
    Two env (m >>= f) (m0 >>= f0) := by
  intro st st0 ha hi
  obtain ⟨evs, ht, hh⟩ := h st st0 ha hi
  rw [P.bind_def, P.bind_def, P.bind_apply, P.bind_apply]
  rcases hm0 : m0 st0 with ⟨x0, st0'⟩
  rcases hm : m st with ⟨x, st'⟩
  rw [hm0] at ht hh
  rw [hm] at hh
  simp only [] at ht hh
  cases x0 with
  | ret a =>
    simp only []
    by_cases hw : Healthy (wlen env st.sock (answers env st.sock.trace evs)) st.sock.out.sched
    · obtain ⟨e1, e2, e3, e4⟩ := hh hw
      subst e1
      obtain ⟨evs', ht', hh'⟩ := h' a st' st0' e2 e3
      have htr : st'.sock.trace = st.sock.trace ++ evs := by rw [e2.trace, ht, ha.trace]
      refine ⟨evs ++ evs', by rw [ht', ht, List.append_assoc], fun hW => ?_⟩
      rw [answers_append, ← htr, wlen_append e4] at hW
      obtain ⟨g1, g2, g3, g4⟩ := hh' (e4.healthy _ hW)
      refine ⟨g1, g2, g3, ?_⟩
      rw [answers_append, ← htr]
      exact e4.trans g4
    · obtain ⟨evs', ht', _⟩ := h' a st0' st0' rfl rfl
      refine ⟨evs ++ evs', by rw [ht', ht, List.append_assoc], fun hW => absurd (hW.mono ?_) hw⟩
      rw [answers_append]
      exact wlen_le ..
  | throw e =>
    simp only []
    refine ⟨evs, ht, fun hw => ?_⟩
    obtain ⟨e1, e2, e3, e4⟩ := hh hw
    subst e1
    exact ⟨rfl, e2, e3, e4⟩
  | block =>
    simp only []
    refine ⟨evs, ht, fun hw => ?_⟩
    obtain ⟨e1, e2, e3, e4⟩ := hh hw
    subst e1
    exact ⟨rfl, e2, e3, e4⟩
  | ub u =>
    simp only []
    refine ⟨evs, ht, fun hw => ?_⟩
    obtain ⟨e1, e2, e3, e4⟩ := hh hw
    subst e1
    exact ⟨rfl, e2, e3, e4⟩

theorem Two.ite {α} {env : Env} {c : Prop} [Decidable c] {a b a0 b0 : P St α} (ha : Two env a a0) (hb : Two env b b0) :
    Two env (if c then a else b) (if c then a0 else b0) := by
  split
  · exact ha
  · exact hb

theorem Two.getIte {α} {env : Env} {c : St → Prop} [∀ st, Decidable (c st)] {a b a0 b0 : P St α}
    (hc : ∀ st st0 : St, Alike st.sock st0.sock → (c st ↔ c st0)) (ha : Two env a a0) (hb : Two env b b0) :
    Two env (P.get >>= fun st => if c st then a else b) (P.get >>= fun st => if c st then a0 else b0) := by
  intro st st0 hal hi
  rw [P.bind_def, P.bind_def, P.bind_apply, P.bind_apply]
  simp only [P.get]
  by_cases h : c st0
  · rw [if_pos h, if_pos ((hc st st0 hal).mpr h)]; exact ha st st0 hal hi
  · rw [if_neg h, if_neg (fun e => h ((hc st st0 hal).mp e))]; exact hb st st0 hal hi

theorem call_two {env : Env} (ht : env.Tame) (hs : env.SmallSends) (mk : Nat → Event) (s s0 : Sock) (ha : Alike s s0) :
    ∃ evs, (callListener env.silent mk s0).2.trace = s0.trace ++ evs ∧ (Healthy (wlen env s (answers env s.trace evs)) s.out.sched →
      (callListener env mk s).1 = (callListener env.silent mk s0).1 ∧ Alike (callListener env mk s).2 (callListener env.silent mk s0).2 ∧
      Ans env s (callListener env mk s).2 (answers env s.trace evs)) := by
  have hl := ha.listener
  cases h0 : s0.listener with
  | none =>
    rw [h0] at hl
    rw [callListener_none hl, callListener_none h0]
    exact ⟨[], by simp, fun _ => ⟨rfl, ha, .nil env rfl rfl rfl⟩⟩
  | some l =>
    rw [h0] at hl
    rw [callListener_some hl, callListener_some h0]
    have htr := ha.trace
    have ha' : Alike { s with trace := s.trace ++ [mk l] } { s0 with trace := s0.trace ++ [mk l] } := by
      unfold Alike at ha ⊢; rw [ha]
    have hsil : env.silent.react (s0.trace ++ [mk l]) = (env.react (s.trace ++ [mk l])).filter fun op => !op.isSend := by
      rw [htr]; rfl
    rw [hsil]
    refine ⟨[mk l], runUserOps_trace (env := env.silent) _ _, fun hh => ?_⟩
    have hans : answers env s.trace [mk l] = sendsOf (env.react (s.trace ++ [mk l])) := by simp [answers]
    rw [hans] at hh ⊢
    obtain ⟨x, s', s0', e, e0, h1, h2, _⟩ := ops_two env (env.react (s.trace ++ [mk l])) (ht _) (hs _)
      { s with trace := s.trace ++ [mk l] } { s0 with trace := s0.trace ++ [mk l] } ha' hh
    rw [e, e0]
    exact ⟨rfl, h1, h2.of_out rfl rfl rfl rfl rfl rfl⟩

theorem Two.call {env : Env} (ht : env.Tame) (hs : env.SmallSends) (mk : Nat → Event) :
    Two env (liftSock (callListener env mk)) (liftSock (callListener env.silent mk)) := by
  intro st st0 ha hi
  obtain ⟨evs, h1, h2⟩ := call_two ht hs mk st.sock st0.sock ha
  refine ⟨evs, h1, fun hh => ?_⟩
  obtain ⟨g1, g2, g3⟩ := h2 hh
  exact ⟨g1, g2, hi, g3⟩

theorem loop_two {env : Env} (ht : env.Tame) (hs : env.SmallSends) (h : Header) (short : Bool) (cap : Nat) (sched : List IoOutcome) :
    ∀ (bytes : List UInt8) (s s0 : Sock) (p : Int) (acc : List UInt8), Alike s s0 →
    ∃ evs, (readPayloadLoop env.silent h short cap sched bytes s0 p acc).2.sock.trace = s0.trace ++ evs ∧
      (Healthy (wlen env s (answers env s.trace evs)) s.out.sched →
      (readPayloadLoop env h short cap sched bytes s p acc).1 = (readPayloadLoop env.silent h short cap sched bytes s0 p acc).1 ∧
      Alike (readPayloadLoop env h short cap sched bytes s p acc).2.sock (readPayloadLoop env.silent h short cap sched bytes s0 p acc).2.sock ∧
      (readPayloadLoop env h short cap sched bytes s p acc).2.inp = (readPayloadLoop env.silent h short cap sched bytes s0 p acc).2.inp ∧
      Ans env s (readPayloadLoop env h short cap sched bytes s p acc).2.sock (answers env s.trace evs)) := by
  induction sched with
  | nil =>
    intro bytes s s0 p acc ha
    unfold readPayloadLoop
    split
    · exact ⟨[], by simp, fun _ => ⟨rfl, ha, rfl, .nil env rfl rfl rfl⟩⟩
    · exact ⟨[], by simp, fun _ => ⟨rfl, ha, rfl, .nil env rfl rfl rfl⟩⟩
  | cons o sched ih =>
    intro bytes s s0 p acc ha
    have stay : ∀ (x : Exit (List UInt8)) (i : InStream), ∃ evs, s0.trace = s0.trace ++ evs ∧
        (Healthy (wlen env s (answers env s.trace evs)) s.out.sched → x = x ∧ Alike s s0 ∧ i = i ∧ Ans env s s (answers env s.trace evs)) :=
      fun _ _ => ⟨[], by simp, fun _ => ⟨rfl, ha, rfl, .nil env rfl rfl rfl⟩⟩
    unfold readPayloadLoop
    split
    · simp only [ha.config]
      generalize (if s0.config.readBufferSize > h.payloadLength - p then h.payloadLength - p
        else s0.config.readBufferSize) = want
      split
      · exact stay _ _
      · rcases lowRead o bytes want.toNat with ⟨(bs | _ | _ | _), bytes'⟩ <;> simp only []
        · split
          · exact stay _ _
          · split
            · exact ih _ _ _ _ _ ha
            · obtain ⟨evs, ht1, hh1⟩ := call_two ht hs (fun l => .readMessage l h.opcode
                (if h.hasMask = true then xorMask h.mask p.toNat bs else bs)) s s0 ha
              rcases hc0 : callListener env.silent (fun l => .readMessage l h.opcode
                (if h.hasMask = true then xorMask h.mask p.toNat bs else bs)) s0 with ⟨x0, s0'⟩
              rcases hc : callListener env (fun l => .readMessage l h.opcode
                (if h.hasMask = true then xorMask h.mask p.toNat bs else bs)) s with ⟨x, s'⟩
              rw [hc0] at ht1 hh1
              rw [hc] at hh1
              simp only [] at ht1 hh1
              cases x0 with
              | ret a =>
                simp only []
                by_cases hw : Healthy (wlen env s (answers env s.trace evs)) s.out.sched
                · obtain ⟨e1, e2, e4⟩ := hh1 hw
                  subst e1
                  obtain ⟨evs', ht', hh'⟩ := ih bytes' s' s0' (p + bs.length) acc e2
                  have htr : s'.trace = s.trace ++ evs := by rw [e2.trace, ht1, ha.trace]
                  refine ⟨evs ++ evs', by rw [ht', ht1, List.append_assoc], fun hW => ?_⟩
                  rw [answers_append, ← htr, wlen_append e4] at hW
                  obtain ⟨g1, g2, g3, g4⟩ := hh' (e4.healthy _ hW)
                  refine ⟨g1, g2, g3, ?_⟩
                  rw [answers_append, ← htr]
                  exact e4.trans g4
                · obtain ⟨evs', ht', _⟩ := ih bytes' s0' s0' (p + bs.length) acc (.refl _)
                  refine ⟨evs ++ evs', by rw [ht', ht1, List.append_assoc], fun hW => absurd (hW.mono ?_) hw⟩
                  rw [answers_append]
                  exact wlen_le ..
              | throw e =>
                simp only []
                refine ⟨evs, ht1, fun hw => ?_⟩
                obtain ⟨e1, e2, e4⟩ := hh1 hw
                subst e1
                exact ⟨rfl, e2, rfl, e4⟩
              | block =>
                simp only []
                refine ⟨evs, ht1, fun hw => ?_⟩
                obtain ⟨e1, e2, e4⟩ := hh1 hw
                subst e1
                exact ⟨rfl, e2, rfl, e4⟩
              | ub u =>
                simp only []
                refine ⟨evs, ht1, fun hw => ?_⟩
                obtain ⟨e1, e2, e4⟩ := hh1 hw
                subst e1
                exact ⟨rfl, e2, rfl, e4⟩
        · exact ih _ _ _ _ _ ha
        · simpa using stay (.throw .connectionState) ⟨bytes', sched⟩
        · simpa using stay (.throw .connectionState) ⟨bytes', sched⟩
    · exact stay _ _

theorem readPayload_two {env : Env} (ht : env.Tame) (hs : env.SmallSends) (h : Header) (short : Bool) :
    Two env (readPayload env h short) (readPayload env.silent h short) := by
  unfold readPayload
  refine .ite (.fail _ _) (.getIte (fun st st0 ha => by rw [ha.config]) (.fail _ _) (Two.bind ?_ fun acc => Two.bind ?_ fun _ => .pure _ _))
  · intro st st0 ha hi
    have := loop_two ht hs h short st0.sock.config.readBufferSize.toNat st0.inp.sched st0.inp.bytes st.sock st0.sock 0 [] ha
    unfold runPayloadLoop
    rw [hi, ha.config]
    exact this
  · unfold endMarker; exact .ite (.call ht hs _) (.pure _ _)

theorem check_two (env : Env) (h : Header) : Two env (liftSock (checkForContinuation h)) (liftSock (checkForContinuation h)) := by
  refine .plain fun st st0 ha hi => ?_
  have e := ha.lastOpcode
  simp only [liftSock, checkForContinuation, e]
  split
  · exact ⟨rfl, ha, hi, rfl, rfl, rfl, rfl⟩
  · split
    · refine ⟨rfl, ?_, hi, rfl, rfl, rfl, rfl⟩
      unfold Alike at ha ⊢; rw [ha]
    · refine ⟨rfl, ?_, hi, rfl, rfl, rfl, rfl⟩
      unfold Alike at ha ⊢; rw [ha]

theorem handleFrame_two {env : Env} (ht : env.Tame) (hs : env.SmallSends) (h : Header) :
    Two env (handleFrame env h) (handleFrame env.silent h) := by
  have rp := fun b => readPayload_two ht hs h b
  unfold handleFrame
  refine .ite (.getIte (fun st st0 ha => by rw [ha.lastOpcode]) (.fail _ _) (Two.bind (rp _) fun _ => .pure _ _)) ?_
  refine .ite (Two.bind (check_two env h) fun b => .ite (Two.bind (rp _) fun _ => .pure _ _) (.fail _ _)) ?_
  refine .ite (Two.bind (check_two env h) fun b => .ite (Two.bind (rp _) fun _ => .pure _ _) (.fail _ _)) ?_
  refine .ite (Two.bind (rp _) fun _ => Two.call ht hs _) ?_
  refine .ite (Two.bind (rp _) fun _ => Two.call ht hs _) ?_
  exact .ite (Two.bind (rp _) fun _ => Two.call ht hs _) (.fail _ _)

theorem connReadExact_two (env : Env) (n) : Two env (connReadExact n) (connReadExact n) := by
  refine .plain fun st st0 ha hi => ?_
  unfold connReadExact
  rw [hi]
  rcases readExact st0.inp.sched st0.inp.bytes n [] with ⟨(_ | _), inp'⟩ <;> exact ⟨rfl, ha, rfl, rfl, rfl, rfl, rfl⟩

theorem readFrameHeader_two (env : Env) (h) : Two env (readFrameHeader env h) (readFrameHeader env.silent h) := by
  have hr : readFrameHeader env.silent h = readFrameHeader env h := rfl
  rw [hr]
  have hlen : ∀ l, Two env (readLength env l) (readLength env l) := by
    intro l
    unfold readLength
    refine .ite (.pure _ _) (.ite (Two.bind (connReadExact_two _ _) fun a => ?_) (Two.bind (connReadExact_two _ _) fun a => ?_))
    · split
      · exact .pure _ _
      · exact .fail _ _
    · split
      · exact .pure _ _
      · exact .fail _ _
  unfold readFrameHeader
  refine Two.bind (connReadExact_two _ _) fun a => ?_
  split
  · simp only [unpackHeaderBits]
    refine Two.bind (hlen _) fun len => ?_
    refine .ite (Two.bind (connReadExact_two _ _) fun a => ?_) (.pure _ _)
    split
    · exact .pure _ _
    · exact .fail _ _
  · exact .fail _ _

theorem iterateFrame_two {env : Env} (ht : env.Tame) (hs : env.SmallSends) (h) : Two env (iterateFrame env h) (iterateFrame env.silent h) := by
  unfold iterateFrame
  exact Two.bind (readFrameHeader_two env h) fun h => Two.bind (handleFrame_two ht hs h) fun _ => .pure _ _

theorem listenLoop_two {env : Env} (ht : env.Tame) (hs : env.SmallSends) (fuel h) :
    Two env (listenLoop env fuel h) (listenLoop env.silent fuel h) := by
  induction fuel generalizing h with
  | zero => exact .plain fun _ _ ha hi => ⟨rfl, ha, hi, rfl, rfl, rfl, rfl⟩
  | succ fuel ih =>
    have key : ∀ (e : Env), listenLoop e (fuel + 1) h = (iterateFrame e h >>= fun h' => P.get >>= fun st =>
        if h'.opcode ≠ OPCODE_CLOSE ∧ st.sock.listening then listenLoop e fuel h' else Pure.pure ()) := by
      intro e
      funext st
      rw [P.bind_def, P.bind_apply]
      simp only [listenLoop]
      rcases iterateFrame e h st with ⟨(a | _ | _ | _), s'⟩ <;> simp only []
      show _ = (if _ then _ else _ : P St Unit) s'
      split <;> rfl
    rw [key, key]
    refine Two.bind (iterateFrame_two ht hs h) fun h' => Two.getIte (fun st st0 ha => by rw [ha.listening]) (ih h') (.pure _ _)

end OatWS
