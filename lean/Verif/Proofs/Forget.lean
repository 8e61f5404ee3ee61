import Verif.Proofs.Follow
import Verif.Proofs.LastOpcode
/-! # What was received earlier does not matter: two runs with different histories -/

namespace OatWS
open RFC6455

/-! ## Sends and user code look at neither the fragmentation state nor the callbacks made so far -/

/-- The same socket with another fragmentation state and other earlier callbacks. -/
def Sock.past (x : Int) (tr : List Event) (s : Sock) : Sock := { s with lastOpcode := x, trace := tr }

def Pastless {α} (m : P Sock α) : Prop := ∀ x tr s, m (s.past x tr) = ((m s).1, (m s).2.past x tr)

theorem Pastless.pure {α} (a : α) : Pastless (Pure.pure a : P Sock α) := fun _ _ _ => rfl
theorem Pastless.fail {α} (e : Err) : Pastless (P.fail e : P Sock α) := fun _ _ _ => rfl
theorem Pastless.undef {α} (u : UB) : Pastless (P.undef u : P Sock α) := fun _ _ _ => rfl

theorem Pastless.bind {α β} {m : P Sock α} {f : α → P Sock β} (h : Pastless m) (h' : ∀ a, Pastless (f a)) : Pastless (m >>= f) := by
  intro x tr s
  rw [P.bind_def, P.bind_apply, P.bind_apply, h x tr s]
  rcases m s with ⟨(a | _ | _ | _), s'⟩ <;> simp only []
  exact h' a x tr s'

theorem Pastless.ite {α} {c : Prop} [Decidable c] {a b : P Sock α} (ha : Pastless a) (hb : Pastless b) :
    Pastless (if c then a else b) := by
  split
  · exact ha
  · exact hb

theorem connWriteExact_pastless (data) : Pastless (connWriteExact data) := by
  intro x tr s
  unfold connWriteExact Sock.past
  simp only []
  rcases writeExact s.out.sched s.out.written data 0 with ⟨(_ | _), o⟩ <;> rfl

theorem writeExpect_pastless (data n e) : Pastless (writeExpect data n e) :=
  Pastless.bind (connWriteExact_pastless data) fun _ => .ite (.fail _) (.pure _)

theorem sendFrameHeader_pastless (env h fin op n) : Pastless (sendFrameHeader env h fin op n) := by
  have hw : ∀ h : Header, Pastless (do writeFrameHeader env h; pure h) := fun h => by
    refine Pastless.bind ?_ fun _ => .pure _
    unfold writeFrameHeader
    refine Pastless.bind (writeExpect_pastless _ _ _) fun _ => Pastless.bind ?_ fun _ => ?_
    · unfold writeLength
      exact .ite (writeExpect_pastless _ _ _) (.ite (writeExpect_pastless _ _ _) (.pure _))
    · unfold writeMask; exact .ite (writeExpect_pastless _ _ _) (.pure _)
  intro x tr s
  unfold sendFrameHeader
  rw [P.bind_def, P.bind_apply, P.bind_apply]
  simp only [P.get, Sock.past]
  split
  · exact Pastless.bind (m := generateMaskForFrame env _) (fun _ _ _ => rfl) hw x tr s
  · exact hw _ x tr s

theorem sendOneFrame_pastless (env fin op m) : Pastless (sendOneFrame env fin op m) := by
  unfold sendOneFrame
  split
  · exact Pastless.bind (sendFrameHeader_pastless env _ fin op _) fun h => .ite (.ite (.undef _) (Pastless.bind (connWriteExact_pastless _) fun _ => .pure _))
      (Pastless.bind (connWriteExact_pastless _) fun _ => .pure _)
  · exact Pastless.bind (sendFrameHeader_pastless env _ fin op _) fun _ => .pure _

theorem sendOrStop_pastless (env op m) : Pastless (sendOrStop env op m) :=
  Pastless.bind (sendOneFrame_pastless env true op m) fun _ => .ite (.pure _) (Pastless.bind (fun _ _ _ => rfl) fun _ => .fail _)

theorem send_pastless (env c) : Pastless (send env c) := by
  cases c with
  | oneFrame fin op m => exact Pastless.bind (sendOneFrame_pastless env fin op m) fun _ => .pure _
  | _ => exact sendOrStop_pastless _ _ _

theorem runUserOp_pastless (env op) : Pastless (runUserOp env op) := by
  cases op with
  | send call catches =>
    intro x tr s
    dsimp only [runUserOp]
    rw [send_pastless env call x tr s]
    rcases send env call s with ⟨(_ | _ | _ | _), s'⟩ <;> simp only []
    split <;> rfl
  | _ => exact fun _ _ _ => rfl

theorem runUserOps_pastless (env) (ops : List UserOp) : Pastless (runUserOps env ops) := by
  induction ops with
  | nil => exact .pure _
  | cons op ops ih => exact Pastless.bind (runUserOp_pastless env op) fun _ => ih

/-! ## Pairs of runs -/

/-- A relation between sockets that the library's receive functions respect. -/
structure Bond (R : Sock → Sock → Prop) (env : Env) : Prop where
  size : ∀ {s t}, R s t → t.config.readBufferSize = s.config.readBufferSize
  listening : ∀ {s t}, R s t → t.listening = s.listening
  sign : ∀ {s t}, R s t → ∃ o, OpenIs o s.lastOpcode ∧ OpenIs o t.lastOpcode
  setLast : ∀ {s t} o x, R s t → OpenIs o x → R { s with lastOpcode := x } { t with lastOpcode := x }
  call : ∀ mk {s t}, R s t → (callListener env mk t).1 = (callListener env mk s).1 ∧ R (callListener env mk s).2 (callListener env mk t).2

def Bonded {α} (R : Sock → Sock → Prop) (m : P St α) : Prop :=
  ∀ (a b : St), R a.sock b.sock → a.inp = b.inp → (m b).1 = (m a).1 ∧ R (m a).2.sock (m b).2.sock ∧ (m a).2.inp = (m b).2.inp

variable {R : Sock → Sock → Prop} {env : Env}

theorem Bonded.pure {α} (a : α) : Bonded R (Pure.pure a : P St α) := fun _ _ h i => ⟨rfl, h, i⟩
theorem Bonded.fail {α} (e : Err) : Bonded R (P.fail e : P St α) := fun _ _ h i => ⟨rfl, h, i⟩

theorem Bonded.bind {α β} {m : P St α} {f : α → P St β} (h : Bonded R m) (h' : ∀ a, Bonded R (f a)) : Bonded R (m >>= f) := by
  intro a b hr hi
  have h1 := h a b hr hi
  rw [P.bind_def, P.bind_apply, P.bind_apply]
  revert h1
  rcases m a with ⟨ra, a'⟩
  rcases m b with ⟨rb, b'⟩
  rintro ⟨e, hr', hi'⟩
  dsimp only at e hr' hi'
  subst e
  cases rb with
  | ret v => exact h' v a' b' hr' hi'
  | throw => exact ⟨rfl, hr', hi'⟩
  | block => exact ⟨rfl, hr', hi'⟩
  | ub => exact ⟨rfl, hr', hi'⟩

theorem Bonded.ite {α} {c : Prop} [Decidable c] {a b : P St α} (ha : Bonded R a) (hb : Bonded R b) : Bonded R (if c then a else b) := by
  split
  · exact ha
  · exact hb

theorem Bonded.getIte {α} {c : St → Prop} [∀ st, Decidable (c st)] {m n : P St α}
    (hc : ∀ a b : St, R a.sock b.sock → (c b ↔ c a)) (hm : Bonded R m) (hn : Bonded R n) :
    Bonded R (P.get >>= fun st => if c st then m else n) := by
  intro a b hr hi
  rw [P.bind_def, P.bind_apply, P.bind_apply]
  simp only [P.get]
  by_cases h : c a
  · rw [if_pos h, if_pos ((hc a b hr).mpr h)]; exact hm a b hr hi
  · rw [if_neg h, if_neg (fun e => h ((hc a b hr).mp e))]; exact hn a b hr hi

theorem Bond.liftCall (B : Bond R env) (mk : Nat → Event) : Bonded R (liftSock (callListener env mk)) :=
  fun _ _ hr hi => ⟨(B.call mk hr).1, (B.call mk hr).2, hi⟩

theorem Bond.loop (B : Bond R env) (h : Header) (short : Bool) (cap : Nat) (sched : List IoOutcome)
    (bytes : List UInt8) (s t : Sock) (hr : R s t) (p : Int) (acc : List UInt8) :
    (readPayloadLoop env h short cap sched bytes t p acc).1 = (readPayloadLoop env h short cap sched bytes s p acc).1 ∧
    R (readPayloadLoop env h short cap sched bytes s p acc).2.sock (readPayloadLoop env h short cap sched bytes t p acc).2.sock ∧
    (readPayloadLoop env h short cap sched bytes s p acc).2.inp = (readPayloadLoop env h short cap sched bytes t p acc).2.inp := by
  induction sched generalizing bytes s t p acc with
  | nil =>
    unfold readPayloadLoop
    split <;> exact ⟨rfl, hr, rfl⟩
  | cons o sched ih =>
    unfold readPayloadLoop
    split
    · simp only [B.size hr]
      generalize (if s.config.readBufferSize > h.payloadLength - p then h.payloadLength - p
        else s.config.readBufferSize) = want
      split
      · exact ⟨rfl, hr, rfl⟩
      · rcases lowRead o bytes want.toNat with ⟨(bs | _ | _ | _), bytes'⟩ <;> simp only []
        · split
          · exact ⟨rfl, hr, rfl⟩
          · split
            · exact ih _ _ _ hr _ _
            · have hc := B.call (fun l => .readMessage l h.opcode
                (if h.hasMask = true then xorMask h.mask p.toNat bs else bs)) hr
              revert hc
              rcases callListener env (fun l => .readMessage l h.opcode
                (if h.hasMask = true then xorMask h.mask p.toNat bs else bs)) s with ⟨r, s'⟩
              rcases callListener env (fun l => .readMessage l h.opcode
                (if h.hasMask = true then xorMask h.mask p.toNat bs else bs)) t with ⟨r', t'⟩
              rintro ⟨e, hr'⟩
              dsimp only at e hr' ⊢
              subst e
              cases r' with
              | ret => exact ih _ _ _ hr' _ _
              | throw => exact ⟨rfl, hr', rfl⟩
              | block => exact ⟨rfl, hr', rfl⟩
              | ub => exact ⟨rfl, hr', rfl⟩
        · exact ih _ _ _ hr _ _
        · exact ⟨trivial, hr, trivial⟩
        · exact ⟨trivial, hr, trivial⟩
    · exact ⟨rfl, hr, rfl⟩

theorem Bond.readPayload (B : Bond R env) (h short) : Bonded R (readPayload env h short) := by
  unfold OatWS.readPayload
  refine .ite (.fail _) (.getIte (fun a b hr => by simp only [B.size hr]) (.fail _) (Bonded.bind ?_ fun acc => Bonded.bind ?_ fun _ => .pure _))
  · intro a b hr hi
    unfold runPayloadLoop
    rw [B.size hr, ← hi]
    exact B.loop h short _ _ _ _ _ hr _ _
  · unfold endMarker; exact .ite (B.liftCall _) (.pure _)

theorem Bond.check (B : Bond R env) (h : Header) (hop : h.opcode = OPCODE_TEXT ∨ h.opcode = OPCODE_BINARY) :
    Bonded R (liftSock (checkForContinuation h)) := by
  intro a b hr hi
  obtain ⟨o, h1, h2⟩ := B.sign hr
  have ha : ∀ {x : Int}, OpenIs o x → ((x = OPCODE_TEXT.toNat ∨ x = OPCODE_BINARY.toNat) ↔ o = true) := by
    intro x hx
    cases o with
    | true => exact ⟨fun _ => rfl, fun _ => hx⟩
    | false => exact ⟨fun e => absurd (show x = -1 from hx) (by rcases e with e | e <;> rw [e] <;> decide), nofun⟩
  simp only [liftSock, checkForContinuation, ha h1, ha h2]
  split
  · exact ⟨rfl, hr, hi⟩
  · split
    · exact ⟨rfl, B.setLast false _ hr rfl, hi⟩
    · refine ⟨rfl, B.setLast true _ hr ?_, hi⟩
      rcases hop with e | e <;> rw [e]
      · exact .inl rfl
      · exact .inr rfl

theorem Bond.handleFrame (B : Bond R env) (h) : Bonded R (handleFrame env h) := by
  have hsign : ∀ a b : St, R a.sock b.sock → (b.sock.lastOpcode < 0 ↔ a.sock.lastOpcode < 0) := by
    intro a b hr
    obtain ⟨o, h1, h2⟩ := B.sign hr
    cases o with
    | false => rw [show _ = _ from h1, show _ = _ from h2]
    | true => rcases h1 with e | e <;> rcases h2 with e' | e' <;> rw [e, e'] <;> decide
  unfold OatWS.handleFrame
  refine .ite (.getIte hsign (.fail _) (Bonded.bind (B.readPayload h _) fun _ => .pure _)) ?_
  split
  · rename_i ho
    exact Bonded.bind (B.check h (.inl ho)) fun b => .ite (Bonded.bind (B.readPayload h _) fun _ => .pure _) (.fail _)
  split
  · rename_i ho
    exact Bonded.bind (B.check h (.inr ho)) fun b => .ite (Bonded.bind (B.readPayload h _) fun _ => .pure _) (.fail _)
  refine .ite (Bonded.bind (B.readPayload h _) fun d => B.liftCall _) ?_
  refine .ite (Bonded.bind (B.readPayload h _) fun _ => B.liftCall _) ?_
  exact .ite (Bonded.bind (B.readPayload h _) fun _ => B.liftCall _) (.fail _)

theorem connReadExact_bonded (n) : Bonded R (connReadExact n) := by
  intro a b hr hi
  unfold connReadExact
  rw [← hi]
  rcases readExact a.inp.sched a.inp.bytes n [] with ⟨(_ | _), inp'⟩ <;> exact ⟨rfl, hr, rfl⟩

theorem readFrameHeader_bonded (h) : Bonded R (readFrameHeader env h) := by
  have hlen : ∀ l, Bonded R (readLength env l) := by
    intro l
    unfold readLength
    refine .ite (.pure _) (.ite (Bonded.bind (connReadExact_bonded _) fun a => ?_) (Bonded.bind (connReadExact_bonded _) fun a => ?_))
    · split
      · exact .pure _
      · exact .fail _
    · split
      · exact .pure _
      · exact .fail _
  unfold OatWS.readFrameHeader
  refine Bonded.bind (connReadExact_bonded _) fun a => ?_
  split
  · simp only [unpackHeaderBits]
    refine Bonded.bind (hlen _) fun len => ?_
    refine .ite (Bonded.bind (connReadExact_bonded _) fun a => ?_) (.pure _)
    split
    · exact .pure _
    · exact .fail _
  · exact .fail _

theorem Bond.iterateFrame (B : Bond R env) (h) : Bonded R (iterateFrame env h) := by
  unfold OatWS.iterateFrame
  exact Bonded.bind (readFrameHeader_bonded h) fun h => Bonded.bind (B.handleFrame h) fun _ => .pure _

theorem Bond.listenLoop (B : Bond R env) (fuel h) : Bonded R (listenLoop env fuel h) := by
  induction fuel generalizing h with
  | zero => exact fun _ _ hr hi => ⟨rfl, hr, hi⟩
  | succ fuel ih =>
    intro a b hr hi
    simp only [OatWS.listenLoop]
    have h1 := B.iterateFrame h a b hr hi
    revert h1
    rcases OatWS.iterateFrame env h a with ⟨r, a'⟩
    rcases OatWS.iterateFrame env h b with ⟨r', b'⟩
    rintro ⟨e, hr', hi'⟩
    dsimp only at e hr' hi' ⊢
    subst e
    cases r' with
    | ret v =>
      simp only [B.listening hr']
      split
      · exact ih v a' b' hr' hi'
      · exact ⟨rfl, hr', hi'⟩
    | throw => exact ⟨rfl, hr', hi'⟩
    | block => exact ⟨rfl, hr', hi'⟩
    | ub => exact ⟨rfl, hr', hi'⟩

theorem Bond.listen (B : Bond R env) (hset : ∀ s t, R s t → R { s with listening := true } { t with listening := true })
    (h) : Bonded R (listen env h) := by
  intro a b hr hi
  have h1 := B.listenLoop (a.inp.sched.length + 1) h { a with sock := { a.sock with listening := true } }
    { b with sock := { b.sock with listening := true } } (hset _ _ hr) hi
  have ea : listenBody env h a = OatWS.listenLoop env (a.inp.sched.length + 1) h { a with sock := { a.sock with listening := true } } := rfl
  have eb : listenBody env h b = OatWS.listenLoop env (a.inp.sched.length + 1) h { b with sock := { b.sock with listening := true } } := by
    rw [hi]; rfl
  unfold OatWS.listen
  rw [ea, eb]
  revert h1
  rcases OatWS.listenLoop env (a.inp.sched.length + 1) h { a with sock := { a.sock with listening := true } } with ⟨r, a'⟩
  rcases OatWS.listenLoop env (a.inp.sched.length + 1) h { b with sock := { b.sock with listening := true } } with ⟨r', b'⟩
  rintro ⟨e, hr', hi'⟩
  dsimp only at e hr' hi'
  subst e
  cases r' <;> exact ⟨rfl, hr', hi'⟩

/-! ## Two relations -/

/-- The same socket with another past: the same callbacks have been made since, and the same fragmented message status. -/
def SamePast (b1 b2 : List Event) (s t : Sock) : Prop :=
  ∃ evs x, t = s.past x (b2 ++ evs) ∧ s.trace = b1 ++ evs ∧ ∃ o, OpenIs o s.lastOpcode ∧ OpenIs o x

theorem samePast_bond {env : Env} {b1 b2 : List Event} (hreact : ∀ evs, env.react (b1 ++ evs) = env.react (b2 ++ evs)) :
    Bond (SamePast b1 b2) env where
  size := by rintro s t ⟨evs, x, rfl, _⟩; rfl
  listening := by rintro s t ⟨evs, x, rfl, _⟩; rfl
  sign := by rintro s t ⟨evs, x, rfl, _, o, h⟩; exact ⟨o, h⟩
  setLast := by
    rintro s t o y ⟨evs, x, rfl, ht, _⟩ ho
    exact ⟨evs, y, rfl, ht, o, ho, ho⟩
  call := by
    rintro mk s t ⟨evs, x, rfl, ht, o, h1, h2⟩
    cases hl : s.listener with
    | none =>
      rw [callListener_none hl, callListener_none (show (s.past x (b2 ++ evs)).listener = none from hl)]
      exact ⟨rfl, evs, x, rfl, ht, o, h1, h2⟩
    | some l =>
      rw [callListener_some hl, callListener_some (show (s.past x (b2 ++ evs)).listener = some l from hl)]
      have e2 : (s.past x (b2 ++ evs)).trace ++ [mk l] = b2 ++ (evs ++ [mk l]) := List.append_assoc ..
      have e1 : s.trace ++ [mk l] = b1 ++ (evs ++ [mk l]) := by rw [ht]; exact List.append_assoc ..
      rw [e2, ← hreact]
      have key := runUserOps_pastless env (env.react (b1 ++ (evs ++ [mk l]))) x (b2 ++ (evs ++ [mk l]))
        { s with trace := b1 ++ (evs ++ [mk l]) }
      have e3 : ({ s with trace := b1 ++ (evs ++ [mk l]) } : Sock).past x (b2 ++ (evs ++ [mk l])) =
        { s.past x (b2 ++ evs) with trace := b2 ++ (evs ++ [mk l]) } := rfl
      rw [e3] at key
      simp only [e1, key]
      exact ⟨trivial, evs ++ [mk l], x, rfl, by rw [runUserOps_trace],
        o, by rw [runUserOps_last]; exact h1, h2⟩

/-- Sockets with the same listener and buffer size that differ otherwise: what each has written so far stays as it is. -/
def SameEars (b1 b2 : List Event) (c1 c2 : Config) (o1 o2 : OutStream) (r1 r2 : Nat) (s t : Sock) : Prop :=
  (∃ evs, s.trace = b1 ++ evs ∧ t.trace = b2 ++ evs) ∧ (∃ o, OpenIs o s.lastOpcode ∧ OpenIs o t.lastOpcode) ∧
  t.listener = s.listener ∧ t.listening = s.listening ∧ (s.config = c1 ∧ t.config = c2) ∧ (s.out = o1 ∧ t.out = o2) ∧ s.rngPos = r1 ∧ t.rngPos = r2

theorem sameEars_bond {env : Env} (hq : env.Quiet) {b1 b2 : List Event} {c1 c2 : Config} (hc : c2.readBufferSize = c1.readBufferSize)
    {o1 o2 : OutStream} {r1 r2 : Nat} : Bond (SameEars b1 b2 c1 c2 o1 o2 r1 r2) env where
  size := by rintro s t ⟨_, _, _, _, ⟨rfl, rfl⟩, _⟩; exact hc
  listening := by rintro s t ⟨_, _, _, h, _⟩; exact h
  sign := by rintro s t ⟨_, h, _⟩; exact h
  setLast := by
    rintro s t o y ⟨h1, _, h3⟩ ho
    exact ⟨h1, ⟨o, ho, ho⟩, h3⟩
  call := by
    rintro mk s t ⟨⟨evs, h1, h2⟩, hop, hl, h4⟩
    cases e : s.listener with
    | none =>
      rw [callListener_none e, callListener_none (hl.trans e)]
      exact ⟨rfl, ⟨evs, h1, h2⟩, hop, hl, h4⟩
    | some l =>
      rw [callListener_some e, callListener_some (hl.trans e), hq, hq]
      exact ⟨rfl, ⟨evs ++ [mk l], by show s.trace ++ [mk l] = _; rw [h1, List.append_assoc], by
        show t.trace ++ [mk l] = _; rw [h2, List.append_assoc]⟩, hop, hl, h4⟩

end OatWS
