import Verif.Proofs.GatewayWrites
import Verif.Props.Gateway
/-! # C97: what is written, with reads nested in callbacks -/

namespace OatWS.Gateway
open RFC6455
open Reentrant (NestedOp)

theorem framesFrom_snoc (env : Env) (m : Bool) (pos : Nat) (cs : List SendCall) (c : SendCall) :
    framesFrom env m pos (cs ++ [c]) = framesFrom env m pos cs ++ framesFrom env m (pos + if m then 4 * cs.length else 0) [c] := by
  induction cs generalizing pos with
  | nil => cases m <;> rfl
  | cons d cs ih =>
    rw [List.cons_append, framesFrom, framesFrom, List.cons_append, ih]
    cases m with
    | false => rfl
    | true =>
      congr 2
      show framesFrom env true (pos + 4 + 4 * cs.length) [c] = framesFrom env true (pos + 4 * (cs.length + 1)) [c]
      rw [Nat.mul_succ, Nat.add_assoc, Nat.add_comm 4]

theorem frame_from (env : Env) (s : Sock) (c : SendCall) : wireOf (framesFrom env s.config.maskOutgoingMessages s.rngPos [c]) = (c.frame env s).encode := by
  unfold wireOf
  rw [framesFrom, framesFrom, List.flatMap_cons, List.flatMap_nil, List.append_nil]
  rfl

/-- What the sends on socket `k` among `ops` write, one after the other, if the socket was `s0` before. -/
def FramesOf (env : Env) (s0 : Sock) (k : Nat) (ops : List (Nat × UserOp)) : List Frame := framesFrom env s0.config.maskOutgoingMessages s0.rngPos (sendsOn k ops)

/-- The frames of all sends since `w0` have been written. -/
structure Whole (c : Code) (k : Nat) (w0 w : World) : Prop where
  fine : ∀ o ∈ (w.socks k).sock.out.sched, o.fine = true
  config : (w.socks k).sock.config = (w0.socks k).sock.config
  calls : ∃ ops, w.did = w0.did ++ ops ∧ (w.socks k).sock.out.written = (w0.socks k).sock.out.written ++ wireOf (FramesOf (c.env k) (w0.socks k).sock k ops) ∧
    (w.socks k).sock.rngPos = (w0.socks k).sock.rngPos + if (w0.socks k).sock.config.maskOutgoingMessages then 4 * (sendsOn k ops).length else 0

/-- The last frame may not be complete. -/
def Torn (c : Code) (k : Nat) (w0 w : World) : Prop := ∃ ops bs, w.did = w0.did ++ ops ∧ (w.socks k).sock.out.written = (w0.socks k).sock.out.written ++ bs ∧
  bs <+: wireOf (FramesOf (c.env k) (w0.socks k).sock k ops) ∧ wireOf (FramesOf (c.env k) (w0.socks k).sock k ops).dropLast <+: bs

theorem wireOf_append (a b : List Frame) : wireOf (a ++ b) = wireOf a ++ wireOf b := List.flatMap_append ..

theorem dropLast_wire (fs : List Frame) : wireOf fs.dropLast <+: wireOf fs := by
  rcases List.eq_nil_or_concat fs with rfl | ⟨a, f, rfl⟩
  · exact List.prefix_rfl
  · rw [List.concat_eq_append, List.dropLast_concat, wireOf_append]
    exact List.prefix_append _ _

theorem side (c : Code) (k : Nat) (w0 : World) : Side k (Whole c k w0) (Torn c k w0) where
  same w w' h hd hw := by
    obtain ⟨ops, h1, h2, h3⟩ := hw.calls
    exact ⟨by rw [h.out]; exact hw.fine, h.config.trans hw.config, ops, hd.trans h1, by rw [h.out, h2], by rw [h.rngPos, h3]⟩
  weaken w hw := by
    obtain ⟨ops, h1, h2, -⟩ := hw.calls
    exact ⟨ops, _, h1, h2, List.prefix_rfl, dropLast_wire _⟩

theorem sendsOn_snoc (k : Nat) (ops : List (Nat × UserOp)) (x : Nat × UserOp) : sendsOn k (ops ++ [x]) = sendsOn k ops ++ sendsOn k [x] := List.filterMap_append ..

theorem sendsOn_send (k : Nat) (call : SendCall) (catches : Bool) : sendsOn k [(k, UserOp.send call catches)] = [call] := by
  unfold sendsOn
  simp

/-- Operations that write nothing on socket `k`. -/
theorem whole_quiet {c : Code} {k : Nat} {w0 w w' : World} (x : Nat × UserOp) (hx : sendsOn k [x] = []) (h : Same (w'.socks k) (w.socks k)) (hd : w'.did = w.did ++ [x]) (hw : Whole c k w0 w) : Whole c k w0 w' := by
  obtain ⟨ops, h1, h2, h3⟩ := hw.calls
  have e : sendsOn k (ops ++ [x]) = sendsOn k ops := by rw [sendsOn_snoc, hx, List.append_nil]
  refine ⟨by rw [h.out]; exact hw.fine, h.config.trans hw.config, ops ++ [x], by rw [hd, h1, List.append_assoc], ?_, ?_⟩
  · unfold FramesOf
    rw [e, h.out, h2]
    rfl
  · rw [e, h.rngPos, h3]

theorem send_allowed (c : Code) (k : Nat) (w0 : World) (call : SendCall) (catches : Bool) (hlen : call.content.2.2.length < 2 ^ 31) (w : World) (hw : Whole c k w0 w) (w' : World) (hd : w'.did = w.did ++ [(k, UserOp.send call catches)])
    (hs : (w'.socks k).sock = (send (c.env k) call (w.socks k).sock).2) :
    ((send (c.env k) call (w.socks k).sock).1 = .ret () ∧ Whole c k w0 w') ∨ ((send (c.env k) call (w.socks k).sock).1 = .block ∧ Torn c k w0 w') := by
  obtain ⟨ops, h1, h2, h3⟩ := hw.calls
  obtain ⟨g1, g2, g3⟩ := send_flows (c.env k) call (w.socks k).sock ⟨Nat.lt_trans hlen (by decide), fun _ => hlen⟩ hw.fine
  rw [← hs] at g1 g2
  have hd : w'.did = w0.did ++ (ops ++ [(k, UserOp.send call catches)]) := by rw [hd, h1, List.append_assoc]
  have hso : sendsOn k (ops ++ [(k, UserOp.send call catches)]) = sendsOn k ops ++ [call] := by rw [sendsOn_snoc, sendsOn_send]
  have hF : FramesOf (c.env k) (w0.socks k).sock k (ops ++ [(k, UserOp.send call catches)]) = FramesOf (c.env k) (w0.socks k).sock k ops ++ framesFrom (c.env k) (w.socks k).sock.config.maskOutgoingMessages (w.socks k).sock.rngPos [call] := by
    unfold FramesOf
    rw [hso, framesFrom_snoc, ← h3, hw.config]
  have hfr : wireOf (FramesOf (c.env k) (w0.socks k).sock k (ops ++ [(k, UserOp.send call catches)])) = wireOf (FramesOf (c.env k) (w0.socks k).sock k ops) ++ (call.frame (c.env k) (w.socks k).sock).encode := by
    rw [hF, wireOf_append, ← frame_from]
  rcases g3 with ⟨e, v, p⟩ | ⟨e, part, hp, v⟩
  · rw [← hs] at v p
    refine .inl ⟨e, g1, g2.trans hw.config, _, hd, ?_, ?_⟩
    · rw [v, h2, hfr, List.append_assoc]
    · rw [p, h3, hw.config, hso]
      cases (w0.socks k).sock.config.maskOutgoingMessages with
      | false => rfl
      | true =>
        show (w0.socks k).sock.rngPos + 4 * (sendsOn k ops).length + 4 = (w0.socks k).sock.rngPos + 4 * (sendsOn k ops ++ [call]).length
        rw [List.length_append, List.length_singleton]
        omega
  · rw [← hs] at v
    refine .inr ⟨e, _, _, hd, by rw [v, h2, List.append_assoc], ?_, ?_⟩
    · rw [hfr]
      exact List.prefix_append_right_inj _ |>.mpr hp
    · rw [hF, framesFrom, framesFrom, List.dropLast_concat]
      exact List.prefix_append _ _

/-- A send of the thread, as a step of the world. -/
theorem nested_send (env : Env) (within : Callback) (k : Nat) (call : SendCall) (catches : Bool) (w : World) :
    nestedOn env within k (.op (.send call catches)) w = ((match (send env call (w.socks k).sock).1 with
      | .throw e => if catches then Exit.ret () else Exit.throw e
      | r => r), { w.put k ⟨(send env call (w.socks k).sock).2, (w.socks k).inp⟩ with did := w.did ++ [(k, UserOp.send call catches)] }) := by
  show ((liftSock (fun s => match send env call s with
    | (.throw e, s') => if catches then (Exit.ret (), s') else (Exit.throw e, s')
    | r => r) (w.socks k)).1, { w.put k (liftSock (fun s => match send env call s with
    | (.throw e, s') => if catches then (Exit.ret (), s') else (Exit.throw e, s')
    | r => r) (w.socks k)).2 with did := w.did ++ [(k, UserOp.send call catches)] }) = _
  unfold liftSock
  dsimp only
  rcases send env call (w.socks k).sock with ⟨r, s'⟩
  cases r with
  | throw e => cases catches <;> rfl
  | _ => rfl

theorem allowed (c : Code) (k : Nat) (hm : c.Modest k) (w0 : World) : Allowed (Whole c k w0) (Torn c k w0) c := by
  intro tr i now j u hn within w hw
  have other : ∀ w' e, sendsOn k [(j, u)] = [] → Same (w'.socks k) (w.socks k) → w'.did = w.did ++ [(j, u)] → Torn c k w0 ((e, w') : Exit Unit × World).2 ∧ (¬ Stops ((e, w') : Exit Unit × World).1 → Whole c k w0 ((e, w') : Exit Unit × World).2) :=
    fun w' e hx h hd => ⟨(side c k w0).weaken _ (whole_quiet _ hx h hd hw), fun _ => whole_quiet _ hx h hd hw⟩
  by_cases hj : j = k
  · subst hj
    have keep : ∀ s e, sendsOn j [(j, u)] = [] → Same s (w.socks j) → Torn c j w0 ((e, { w.put j s with did := w.did ++ [(j, u)] }) : Exit Unit × World).2 ∧
        (¬ Stops ((e, { w.put j s with did := w.did ++ [(j, u)] }) : Exit Unit × World).1 → Whole c j w0 ((e, { w.put j s with did := w.did ++ [(j, u)] }) : Exit Unit × World).2) :=
      fun s e hx h => other { w.put j s with did := w.did ++ [(j, u)] } e hx (by show Same ((w.put j s).socks j) _; rw [put_self]; exact h) rfl
    cases u with
    | stopListening => exact keep (liftSock (runUserOp (c.env j) .stopListening) (w.socks j)).2 _ rfl ⟨rfl, rfl, rfl⟩
    | setListener l => exact keep (liftSock (runUserOp (c.env j) (.setListener l)) (w.socks j)).2 _ rfl ⟨rfl, rfl, rfl⟩
    | setConfig cfg => exact absurd hn (hm.2 tr i now cfg)
    | throw => exact keep (liftSock (runUserOp (c.env j) .throw) (w.socks j)).2 _ rfl ⟨rfl, rfl, rfl⟩
    | send call catches =>
      rw [nested_send]
      rcases send_allowed c j w0 call catches (hm.1 call ⟨tr, i, now, catches, hn⟩) w hw { w.put j ⟨(send (c.env j) call (w.socks j).sock).2, (w.socks j).inp⟩ with did := w.did ++ [(j, UserOp.send call catches)] } rfl
        (by show ((w.put j _).socks j).sock = _; rw [put_self]) with ⟨e, h⟩ | ⟨e, h⟩
      · exact ⟨(side c j w0).weaken _ h, fun _ => h⟩
      · rw [e]
        exact ⟨h, fun hs => absurd trivial hs⟩
  · have hx : sendsOn k [(j, u)] = [] := by
      unfold sendsOn
      cases u with
      | send call catches => simp [hj]
      | _ => rfl
    refine other (nestedOn (c.env j) within j (.op u) w).2 (nestedOn (c.env j) within j (.op u) w).1 hx ?_ rfl
    show Same ((w.put j _).socks k) _
    rw [put_other w _ (Ne.symm hj)]
    exact .refl _

/-- **C97** (what is written). One thread with any number of sockets, which reads from them inside callbacks of others or of the same, to any depth, in the middle of a frame too, and sends on them wherever it likes. On each socket whose writes do not fail, exactly the frames of the thread's sends have been
written, in the order of the calls, none torn by another; unless the thread has come to its end, the last one may not be complete. -/
theorem C97_written (c : Code) (k : Nat) (hm : c.Modest k) (steps depth : Nat) (w : World) (hf : ∀ o ∈ (w.socks k).sock.out.sched, o.fine = true) :
    ∃ ops bs, (main c steps depth w).2.did = w.did ++ ops ∧ ((main c steps depth w).2.socks k).sock.out.written = (w.socks k).sock.out.written ++ bs ∧
      bs <+: wireOf (FramesOf (c.env k) (w.socks k).sock k ops) ∧ wireOf (FramesOf (c.env k) (w.socks k).sock k ops).dropLast <+: bs ∧
      (¬ Stops (main c steps depth w).1 → bs = wireOf (FramesOf (c.env k) (w.socks k).sock k ops)) := by
  obtain ⟨⟨ops, bs, h1, h2, h3, h4⟩, h5⟩ := main_tidy (side c k w) (allowed c k hm w) steps depth w ⟨hf, rfl, [], (List.append_nil _).symm, (List.append_nil _).symm, by cases (w.socks k).sock.config.maskOutgoingMessages <;> rfl⟩
  by_cases hs : Stops (main c steps depth w).1
  · exact ⟨ops, bs, h1, h2, h3, h4, fun h => absurd hs h⟩
  · obtain ⟨ops', g1, g2, -⟩ := (h5 hs).calls
    exact ⟨ops', _, g1, g2, List.prefix_rfl, dropLast_wire _, fun _ => rfl⟩

/-- **C97** (one send). A send of the thread, inside callbacks or outside: over a connection whose writes do not fail it writes exactly its frame, or waits having written a beginning of it. Nothing else changes on any socket, and there is no callback. -/
theorem C97_one_send (env : Env) (within : Callback) (k : Nat) (call : SendCall) (catches : Bool) (w : World) (hs : call.content.2.2.length < 2 ^ 31) (hf : ∀ o ∈ (w.socks k).sock.out.sched, o.fine = true) :
    (((nestedOn env within k (.op (.send call catches)) w).1 = .ret () ∧ ((nestedOn env within k (.op (.send call catches)) w).2.socks k).sock.out.written = (w.socks k).sock.out.written ++ (call.frame env (w.socks k).sock).encode) ∨
      ((nestedOn env within k (.op (.send call catches)) w).1 = .block ∧ ∃ part, part <+: (call.frame env (w.socks k).sock).encode ∧
        ((nestedOn env within k (.op (.send call catches)) w).2.socks k).sock.out.written = (w.socks k).sock.out.written ++ part)) ∧
    Like ((nestedOn env within k (.op (.send call catches)) w).2.socks k) (w.socks k) ∧
    (∀ j, j ≠ k → (nestedOn env within k (.op (.send call catches)) w).2.socks j = w.socks j) ∧ (nestedOn env within k (.op (.send call catches)) w).2.log = w.log ∧
    (nestedOn env within k (.op (.send call catches)) w).2.did = w.did ++ [(k, UserOp.send call catches)] := by
  obtain ⟨-, -, g⟩ := send_flows env call (w.socks k).sock ⟨Nat.lt_trans hs (by decide), fun _ => hs⟩ hf
  have hk := send_keeps env call (w.socks k).sock
  rw [nested_send]
  refine ⟨?_, ?_, fun j hj => put_other w _ hj, rfl, rfl⟩
  · show ((_ ∧ ((w.put k _).socks k).sock.out.written = _) ∨ (_ ∧ ∃ part, _ ∧ ((w.put k _).socks k).sock.out.written = _))
    rw [put_self]
    rcases g with ⟨e, h, -⟩ | ⟨e, part, h1, h2⟩
    · exact .inl ⟨by dsimp only; rw [e], h⟩
    · exact .inr ⟨by dsimp only; rw [e], part, h1, h2⟩
  · show Like ((w.put k _).socks k) _
    rw [put_self]
    exact ⟨rfl, hk.listener, hk.config, hk.lastOpcode, hk.trace⟩

example := C97_one_send Fixture.env (callback exCode 5 5) 1 (.text (some [1])) true exWorld (by decide) (by decide)

/-! ## A case -/

theorem exCode_modest (k : Nat) : exCode.Modest k := by
  have key : ∀ tr i now u, exCode.next tr i now = some (k, .op u) → u = .send (.text (some [1])) true ∨ u = .send (.pong (some [2])) true := by
    intro tr i now u hn
    dsimp only [exCode] at hn
    split at hn
    · split at hn <;> cases hn
    · split at hn
      · injection hn with hn
        injection hn with _ hn
        injection hn with hn
        exact .inl hn.symm
      · split at hn <;> cases hn
    · split at hn
      · injection hn with hn
        injection hn with _ hn
        injection hn with hn
        exact .inr hn.symm
      · cases hn
    · cases hn
  refine ⟨fun call hc => ?_, fun tr i now cfg hn => ?_⟩
  · obtain ⟨tr, i, now, catches, hn⟩ := hc
    rcases key _ _ _ _ hn with h | h <;> injection h with h _ <;> rw [h] <;> decide
  · rcases key _ _ _ _ hn with h | h <;> cases h

/-- The client of the gateway has got its pongs (as `exRun` says, two), whole. -/
example : ∃ ops bs, (main exCode 5 5 exWorld).2.did = exWorld.did ++ ops ∧ ((main exCode 5 5 exWorld).2.socks 0).sock.out.written = (exWorld.socks 0).sock.out.written ++ bs ∧
    bs <+: wireOf (FramesOf (exCode.env 0) (exWorld.socks 0).sock 0 ops) ∧ wireOf (FramesOf (exCode.env 0) (exWorld.socks 0).sock 0 ops).dropLast <+: bs ∧
    (¬ Stops (main exCode 5 5 exWorld).1 → bs = wireOf (FramesOf (exCode.env 0) (exWorld.socks 0).sock 0 ops)) :=
  C97_written exCode 0 (exCode_modest 0) 5 5 exWorld (by decide)

/-- What it has done: to the back end a text for each piece of data of the client, to the client a pong for each ping of the back end. -/
example : sendsOn 0 (main exCode 5 5 exWorld).2.did = [.pong (some [2]), .pong (some [2])] ∧ (sendsOn 1 (main exCode 5 5 exWorld).2.did).length = 5 := by
  constructor <;> decide +kernel

end OatWS.Gateway
