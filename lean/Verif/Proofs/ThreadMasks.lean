import Verif.Proofs.AsyncMasks
import Verif.Props.ThreadSends
/-! Threads that do not change whether to mask: every frame is masked, or none. -/

namespace OatWS.Threads
open RFC6455 Async Prog

variable {α β : Type}

/-- In the middle of a send: whether it has taken a masking key. -/
abbrev KeyPh := Option Bool

def KeyPh.after : Act → KeyPh → KeyPh
  | .call _, _ => some false
  | .random, some _ => some true
  | .returned _, _ => none
  | _, ph => ph

def KeyFits (m : Bool) : Act → KeyPh → Prop
  | .call _, ph => ph = none
  | .write _, ph => ph = some m
  | .random, ph => m = true ∧ ph = some false
  | .returned true, ph => ph = some m
  | .returned false, ph => ∃ b, ph = some b
  | .setConfig c, _ => c.maskOutgoingMessages = m
  | _, _ => True

/-- What the step can give when the configuration says `m`. -/
def KeyCan (m : Bool) : (a : Act) → a.Res → Prop
  | .getConfig, c => Config.maskOutgoingMessages c = m
  | _, _ => True

def KeyOk (m : Bool) : Prog α → KeyPh → (Except Err α → KeyPh → Prop) → Prop
  | .ret a, ph, Q => Q (.ok a) ph
  | .throw e, ph, Q => Q (.error e) ph
  | .ub _, _, _ => True
  | .stuck, _, _ => True
  | .act a k, ph, Q => ∀ r, KeyCan m a r → KeyFits m a ph ∧ KeyOk m (k r) (KeyPh.after a ph) Q

theorem KeyOk.mono {m} {p : Prog α} {ph Q Q'} (h : KeyOk m p ph Q) (hq : ∀ x ph, Q x ph → Q' x ph) : KeyOk m p ph Q' := by
  induction p generalizing ph with
  | ret a => exact hq _ _ h
  | throw e => exact hq _ _ h
  | ub u => trivial
  | stuck => trivial
  | act a k ih => exact fun r hc => ⟨(h r hc).1, ih r (h r hc).2⟩

theorem KeyOk.andThen {m} {p : Prog α} {f : α → Prog β} {ph Q Q'} (h : KeyOk m p ph Q) (h1 : ∀ a ph, Q (.ok a) ph → KeyOk m (f a) ph Q')
    (h2 : ∀ e ph, Q (.error e) ph → Q' (.error e) ph) : KeyOk m (Prog.andThen p f) ph Q' := by
  induction p generalizing ph with
  | ret a => exact h1 _ _ h
  | throw e => exact h2 _ _ h
  | ub u => trivial
  | stuck => trivial
  | act a k ih => exact fun r hc => ⟨(h r hc).1, ih r (h r hc).2⟩

theorem KeyOk.catching {m} {p : Prog α} {f : Err → Prog α} {ph Q Q'} (h : KeyOk m p ph Q) (h1 : ∀ a ph, Q (.ok a) ph → Q' (.ok a) ph)
    (h2 : ∀ e ph, Q (.error e) ph → KeyOk m (f e) ph Q') : KeyOk m (Prog.catching p f) ph Q' := by
  induction p generalizing ph with
  | ret a => exact h1 _ _ h
  | throw e => exact h2 _ _ h
  | ub u => trivial
  | stuck => trivial
  | act a k ih => exact fun r hc => ⟨(h r hc).1, ih r (h r hc).2⟩

def KeyOver (_ : Except Err α) (ph : KeyPh) : Prop := ph = none

theorem KeyOk.seq {m} {p : Prog α} {f : α → Prog β} (h : KeyOk m p none KeyOver) (h1 : ∀ a, KeyOk m (f a) none KeyOver) : KeyOk m (Prog.andThen p f) none KeyOver :=
  h.andThen (fun a _ h => (show _ = none from h) ▸ h1 a) (fun _ _ h => h)

/-! ## Sends -/

/-- The key is there, if one is needed. -/
def Keyed (m : Bool) (_ : Except Err α) (ph : KeyPh) : Prop := ph = some m

theorem KeyOk.then {m} {p : Prog α} {f : α → Prog β} (h : KeyOk m p (some m) (Keyed m)) (h1 : ∀ a, KeyOk m (f a) (some m) (Keyed m)) :
    KeyOk m (Prog.andThen p f) (some m) (Keyed m) :=
  h.andThen (fun a _ h => (show _ = some m from h) ▸ h1 a) (fun _ _ h => h)

theorem key_writeExact (m fuel data n) : KeyOk m (writeExactT fuel data n) (some m) (Keyed m) := by
  induction fuel generalizing data n with
  | zero => cases data with
    | nil => rfl
    | cons b bs => trivial
  | succ fuel ih =>
    cases data with
    | nil => rfl
    | cons b bs =>
      intro r _
      refine ⟨rfl, ?_⟩
      cases r with
      | wrote k => exact ih _ _
      | retry => exact ih _ _
      | zero => rfl
      | broken => rfl

theorem key_writeExpect (m fuel data size e) : KeyOk m (writeExpectT fuel data size e) (some m) (Keyed m) := by
  refine (key_writeExact m fuel data 0).then fun res => ?_
  split <;> rfl

theorem key_writeFrameHeader (m env fuel h) : KeyOk m (writeFrameHeaderT env fuel h) (some m) (Keyed m) := by
  refine (key_writeExpect ..).then fun _ => KeyOk.then ?_ fun _ => ?_
  · unfold writeLengthT
    split
    · exact key_writeExpect ..
    · split
      · exact key_writeExpect ..
      · rfl
  · unfold writeMaskT
    split
    · exact key_writeExpect ..
    · rfl

theorem key_sendFrameHeader (m env fuel h fin op size) : KeyOk m (sendFrameHeaderT env fuel h fin op size) (some false) (Keyed m) := by
  intro c hc
  refine ⟨trivial, ?_⟩
  have hc : c.maskOutgoingMessages = m := hc
  show KeyOk m (if c.maskOutgoingMessages = true then _ else _) (some false) _
  cases m with
  | false =>
    rw [if_neg (by rw [hc]; nofun)]
    exact (key_writeFrameHeader ..).then fun _ => rfl
  | true =>
    rw [if_pos hc]
    intro k _
    exact ⟨⟨rfl, rfl⟩, (key_writeFrameHeader ..).then fun _ => rfl⟩

theorem key_sendOneFrame (m env fuel fin op message) : KeyOk m (sendOneFrameT env fuel fin op message) (some false) (Keyed m) := by
  unfold sendOneFrameT
  split
  · refine (key_sendFrameHeader _ _ _ _ _ _ _).andThen (fun h _ e => (show _ = some m from e) ▸ ?_) fun _ _ h => h
    split
    · split
      · trivial
      · exact (key_writeExact ..).then fun _ => rfl
    · exact (key_writeExact ..).then fun _ => rfl
  · exact (key_sendFrameHeader _ _ _ _ _ _ _).andThen (fun h _ e => (show _ = some m from e) ▸ rfl) fun _ _ h => h

theorem key_sendOrStop (m env fuel op message) : KeyOk m (sendOrStopT env fuel op message) (some false) (Keyed m) := by
  refine (key_sendOneFrame ..).andThen (fun ok _ e => (show _ = some m from e) ▸ ?_) fun _ _ h => h
  split
  · rfl
  · exact fun _ _ => ⟨trivial, rfl⟩

theorem key_send (m env fuel c) : KeyOk m (sendT env fuel c) (some false) (Keyed m) := by
  cases c with
  | oneFrame fin op msg => exact key_sendOneFrame ..
  | _ => exact key_sendOrStop ..

theorem key_writePieces (m fuel h n pieces) : KeyOk m (writePiecesT fuel h n pieces) (some m) (Keyed m) := by
  induction pieces generalizing n with
  | nil => rfl
  | cons p ps ih =>
    refine (key_writeExact ..).then fun res => ?_
    split
    · exact ih _
    · rfl

theorem key_returned {m : Bool} {ok : Bool} {k : Unit → Prog β} {Q} (h : KeyOk m (k ()) none Q) : KeyOk m (.act (.returned ok) k) (some m) Q := by
  intro r _
  refine ⟨?_, h⟩
  cases ok with
  | true => rfl
  | false => exact ⟨m, rfl⟩

theorem key_marked {m} {p : Prog Bool} (c : SendCall) (h : KeyOk m p (some false) (Keyed m)) :
    KeyOk m (.act (.call c) fun _ => Prog.catching (Prog.andThen p fun ok => .act (.returned ok) fun _ => .ret ok)
      (fun e => .act (.returned false) fun _ => .throw e)) none KeyOver := by
  intro _ _
  refine ⟨rfl, KeyOk.catching (Q := fun x ph => match x with | .ok _ => ph = none | .error _ => ph = some m) (h.andThen (fun ok ph e => ?_) fun _ _ h => h)
    (fun _ _ h => h) fun e ph h => ?_⟩
  · rw [show ph = some m from e]; exact key_returned rfl
  · rw [show ph = some m from h]; exact key_returned rfl

theorem key_userSend (m env fuel c catches) : KeyOk m (userSendT env fuel c catches) none KeyOver := by
  intro _ _
  refine ⟨rfl, KeyOk.andThen (Q := KeyOver) (KeyOk.catching (Q := fun x ph => match x with | .ok _ => ph = none | .error _ => ph = some m)
    ((key_send m env fuel c).andThen (fun ok ph e => ?_) fun _ _ h => h) (fun _ _ h => h) fun e ph h => ?_) (fun r ph h => ?_) fun _ _ h => h⟩
  · rw [show ph = some m from e]; exact key_returned rfl
  · rw [show ph = some m from h]; exact key_returned rfl
  · rw [show ph = none from h]
    cases r with
    | none => rfl
    | some e =>
      show KeyOk m (if _ then _ else _) _ _
      split <;> rfl

theorem key_userOps {m} (env : Env) (fuel : Nat) (ops : List UserOp) (h : ∀ op ∈ ops, op.MasksAs m) : KeyOk m (userOpsT env fuel ops) none KeyOver := by
  induction ops with
  | nil => rfl
  | cons op ops ih =>
    refine KeyOk.seq ?_ fun _ => ih fun op ho => h op (List.mem_cons_of_mem _ ho)
    have h1 := h op (List.mem_cons_self ..)
    cases op with
    | send c b => exact key_userSend m env fuel c b
    | throw => rfl
    | setConfig c => exact fun _ _ => ⟨h1, rfl⟩
    | stopListening => exact fun _ _ => ⟨trivial, rfl⟩
    | setListener l => exact fun _ _ => ⟨trivial, rfl⟩

/-! ## Receiving -/

theorem key_callListener {m} {env : Env} (hm : env.MasksAs m) (fuel mk) : KeyOk m (callListenerT env fuel mk) none KeyOver := by
  intro l _
  refine ⟨trivial, ?_⟩
  match l with
  | none => rfl
  | some l => exact fun tr _ => ⟨trivial, key_userOps env fuel _ (hm tr)⟩

theorem key_readExact (m fuel need acc) : KeyOk m (readExactT fuel need acc) none KeyOver := by
  induction fuel generalizing need acc with
  | zero => cases need <;> trivial
  | succ fuel ih =>
    cases need with
    | zero => rfl
    | succ need =>
      intro r _
      refine ⟨trivial, ?_⟩
      cases r with
      | data bs => exact ih _ _
      | retry => exact ih _ _
      | zero => rfl
      | broken => rfl

theorem key_readFrameHeader (m env fuel h) : KeyOk m (readFrameHeaderT env fuel h) none KeyOver := by
  refine (key_readExact ..).seq fun bs => ?_
  split
  · refine KeyOk.seq ?_ fun len => ?_
    · unfold readLengthT
      split
      · rfl
      · split
        · refine (key_readExact ..).seq fun bs => ?_
          split <;> rfl
        · refine (key_readExact ..).seq fun bs => ?_
          split <;> rfl
    · split
      · refine (key_readExact ..).seq fun bs => ?_
        split <;> rfl
      · rfl
  · rfl

theorem key_readPayloadLoop {m} {env : Env} (hm : env.MasksAs m) (fuel h short cap n progress acc) :
    KeyOk m (readPayloadLoopT env fuel h short cap n progress acc) none KeyOver := by
  induction n generalizing progress acc with
  | zero =>
    unfold readPayloadLoopT
    split
    · trivial
    · rfl
  | succ n ih =>
    unfold readPayloadLoopT
    split
    · intro c _
      refine ⟨trivial, ?_⟩
      dsimp only
      generalize (if c.readBufferSize > h.payloadLength - progress then h.payloadLength - progress else c.readBufferSize) = want
      split
      · exact fun _ _ => ⟨trivial, trivial⟩
      · intro r _
        refine ⟨trivial, ?_⟩
        cases r with
        | data bs =>
          dsimp only
          split
          · trivial
          · split
            · exact ih _ _
            · exact (key_callListener hm _ _).seq fun _ => ih _ _
        | retry => exact ih _ _
        | zero => rfl
        | broken => rfl
    · rfl

theorem key_readPayload {m} {env : Env} (hm : env.MasksAs m) (fuel h short) : KeyOk m (readPayloadT env fuel h short) none KeyOver := by
  unfold readPayloadT
  split
  · rfl
  · intro c _
    refine ⟨trivial, ?_⟩
    show KeyOk m (if _ then _ else _) none _
    split
    · rfl
    · refine (key_readPayloadLoop hm ..).seq fun acc => KeyOk.seq ?_ fun _ => rfl
      unfold endMarkerT
      split
      · exact key_callListener hm _ _
      · rfl

theorem key_handleFrame {m} {env : Env} (hm : env.MasksAs m) (fuel h) : KeyOk m (handleFrameT env fuel h) none KeyOver := by
  have data : KeyOk m (Prog.andThen (readPayloadT env fuel h false) fun _ => .ret ()) none KeyOver := (key_readPayload hm _ _ _).seq fun _ => rfl
  have start : KeyOk m (Prog.andThen (checkForContinuationT h) fun ok =>
      if ok then Prog.andThen (readPayloadT env fuel h false) fun _ => .ret () else .throw .continuationExpected) none KeyOver := by
    refine KeyOk.seq ?_ fun ok => ?_
    · intro v _
      refine ⟨trivial, ?_⟩
      show KeyOk m (if _ then _ else _) none _
      split
      · rfl
      · split <;> exact fun _ _ => ⟨trivial, rfl⟩
    · split
      · exact data
      · rfl
  have control : ∀ mk : List UInt8 → Nat → Event, KeyOk m (Prog.andThen (readPayloadT env fuel h true) fun data => callListenerT env fuel (mk data)) none KeyOver :=
    fun mk => (key_readPayload hm _ _ _).seq fun _ => key_callListener hm _ _
  unfold handleFrameT
  split
  · intro v _
    refine ⟨trivial, ?_⟩
    show KeyOk m (if _ then _ else _) none _
    split
    · rfl
    · exact data
  · split
    · exact start
    · split
      · exact start
      · split
        · exact control fun data l => .onClose l (closeArgs env data).1 (closeArgs env data).2
        · split
          · exact control fun data l => .onPing l data
          · split
            · exact control fun data l => .onPong l data
            · rfl

theorem key_iterateFrame {m} {env : Env} (hm : env.MasksAs m) (fuel h) : KeyOk m (iterateFrameT env fuel h) none KeyOver :=
  (key_readFrameHeader ..).seq fun _ => (key_handleFrame hm _ _).seq fun _ => rfl

theorem key_listenLoop {m} {env : Env} (hm : env.MasksAs m) (fuel n h) : KeyOk m (listenLoopT env fuel n h) none KeyOver := by
  induction n generalizing h with
  | zero => trivial
  | succ n ih =>
    refine (key_iterateFrame hm fuel h).seq fun h' => ?_
    split
    · intro b _
      refine ⟨trivial, ?_⟩
      show KeyOk m (if _ then _ else _) none _
      split
      · exact ih _
      · rfl
    · rfl

theorem key_listen {m} {env : Env} (hm : env.MasksAs m) (fuel h) : KeyOk m (listenT env fuel h) none KeyOver := by
  refine KeyOk.catching (Q := KeyOver) (fun _ _ => ⟨trivial, key_listenLoop hm ..⟩) (fun _ _ h => h) (fun _ _ h => ?_)
  rw [show _ = none from h]; rfl

/-! ## Code of applications -/

theorem HelperCode.keyOk {m} {env : Env} {fuel : Nat} {α : Type} {p : Prog α} (h : HelperCode (UserOp.MasksAs m) env fuel p) : KeyOk m p none KeyOver := by
  induction h with
  | ret a => rfl
  | throw e => rfl
  | bind _ _ h1 h2 => exact h1.seq h2
  | catching _ _ h1 h2 => exact KeyOk.catching h1 (fun _ _ h => h) (fun e _ h => (show _ = none from h) ▸ h2 e)
  | code ops ho => exact key_userOps env fuel ops ho
  | send c _ => exact key_marked c (key_send ..)
  | stream c h pieces _ _ =>
    exact key_marked c ((key_sendFrameHeader _ _ _ _ _ _ _).andThen (fun h _ e => (show _ = some m from e) ▸ key_writePieces ..) fun _ _ h => h)

theorem CodeOf.keyOk {m} {env : Env} (hm : env.MasksAs m) {fuel : Nat} {α : Type} {p : Prog α} (h : CodeOf (UserOp.MasksAs m) env fuel p) : KeyOk m p none KeyOver := by
  induction h with
  | helper h => exact h.keyOk
  | bind _ _ h1 h2 => exact h1.seq h2
  | catching _ _ h1 h2 => exact KeyOk.catching h1 (fun _ _ h => h) (fun e _ h => (show _ = none from h) ▸ h2 e)
  | listen h => exact key_listen hm _ _
  | iterate h => exact key_iterateFrame hm _ _
  | getListener => exact fun _ _ => ⟨trivial, rfl⟩

theorem CodeOf.app {O : UserOp → Prop} {env : Env} {fuel : Nat} {α : Type} {p : Prog α} (h : CodeOf O env fuel p) : AppCode env fuel p := by
  induction h with
  | helper h => exact h.app
  | bind _ _ h1 h2 => exact .bind h1 h2
  | catching _ _ h1 h2 => exact .catching h1 h2
  | listen h => exact .listen h
  | iterate h => exact .iterate h
  | getListener => exact .getListener

/-! ## Executions -/

def KeyAgree (ph : KeyPh) (ss : List Sent) : Prop :=
  match ph with
  | none => HeadOver ss
  | some b => ∃ s r, ss = s :: r ∧ s.state = .inProgress ∧ s.key.isSome = b

theorem key_step (m : Bool) (env : Env) (i : Nat) (a : Act) (ph : KeyPh) (ss : List Sent) (hg : KeyAgree ph ss) (hs : ∀ s ∈ ss, s.KeyedAs m)
    (st : St) (r : a.Res) (st' : St) (he : exec env a st = some (r, st')) (hf : KeyFits m a ph) :
    KeyAgree (KeyPh.after a ph) (feed ss (entry i a st st')) ∧ ∀ s ∈ feed ss (entry i a st st'), s.KeyedAs m := by
  rw [entry_eq i he]
  have quiet : ∀ e : Entry, e.called = none → e.wrote = [] → e.drew = none → e.completed = false → e.failed = false → KeyPh.after a ph = ph →
      KeyAgree (KeyPh.after a ph) (feed ss e) ∧ ∀ s ∈ feed ss e, s.KeyedAs m := by
    intro e h1 h2 h3 h4 h5 h6
    have : feed ss e = ss := by
      unfold feed
      rw [h1, h2, h3, h4, h5]
      cases ss with
      | nil => rfl
      | cons s r => simp
    rw [this, h6]
    exact ⟨hg, hs⟩
  cases a with
  | call c =>
    refine ⟨⟨_, _, rfl, rfl, rfl⟩, fun s h => ?_⟩
    rcases List.mem_cons.mp h with rfl | h
    · exact ⟨nofun, fun h => h.elim (absurd rfl) nofun⟩
    · exact hs s h
  | write d =>
    cases r with
    | wrote n =>
      have hf : ph = some m := hf
      subst hf
      obtain ⟨s, r, rfl, h1, h2⟩ := hg
      have hfeed : feed (s :: r) ⟨i, none, d.take n, none, false, false⟩ = ⟨s.call, s.bytes ++ d.take n, s.key, s.state⟩ :: r := by simp [feed]
      show KeyAgree _ (feed _ ⟨i, none, d.take n, none, false, false⟩) ∧ ∀ x ∈ feed _ ⟨i, none, d.take n, none, false, false⟩, _
      rw [hfeed]
      refine ⟨⟨_, _, rfl, h1, h2⟩, fun x hx => ?_⟩
      rcases List.mem_cons.mp hx with rfl | hx
      · exact ⟨fun h => h2.symm.trans h, fun _ => h2⟩
      · exact hs x (List.mem_cons_of_mem _ hx)
    | retry => exact quiet _ rfl rfl rfl rfl rfl rfl
    | zero => exact quiet _ rfl rfl rfl rfl rfl rfl
    | broken => exact quiet _ rfl rfl rfl rfl rfl rfl
  | random =>
    obtain ⟨rfl, rfl⟩ := hf
    obtain ⟨s, r, rfl, h1, h2⟩ := hg
    have h2 : s.key = none := by cases h : s.key with
      | none => rfl
      | some k => rw [h] at h2; cases h2
    have hfeed : feed (s :: r) ⟨i, none, [], some st.sock.rngPos, false, false⟩ = ⟨s.call, s.bytes, some st.sock.rngPos, s.state⟩ :: r := by simp [feed, h2]
    show KeyAgree _ (feed _ ⟨i, none, [], some st.sock.rngPos, false, false⟩) ∧ ∀ x ∈ feed _ ⟨i, none, [], some st.sock.rngPos, false, false⟩, _
    rw [hfeed]
    refine ⟨⟨_, _, rfl, h1, rfl⟩, fun x hx => ?_⟩
    rcases List.mem_cons.mp hx with rfl | hx
    · exact ⟨fun _ => rfl, fun _ => rfl⟩
    · exact hs x (List.mem_cons_of_mem _ hx)
  | returned b =>
    cases b with
    | true =>
      have hf : ph = some m := hf
      subst hf
      obtain ⟨s, r, rfl, h1, h2⟩ := hg
      have hfeed : feed (s :: r) ⟨i, none, [], none, true, false⟩ = ⟨s.call, s.bytes, s.key, .completed⟩ :: r := by simp [feed]
      show KeyAgree _ (feed _ ⟨i, none, [], none, true, false⟩) ∧ ∀ x ∈ feed _ ⟨i, none, [], none, true, false⟩, _
      rw [hfeed]
      refine ⟨fun x r' hx => ?_, fun x hx => ?_⟩
      · injection hx with hx _
        rw [← hx]; nofun
      · rcases List.mem_cons.mp hx with rfl | hx
        · exact ⟨fun h => h2.symm.trans h, fun _ => h2⟩
        · exact hs x (List.mem_cons_of_mem _ hx)
    | false =>
      obtain ⟨b, rfl⟩ := hf
      obtain ⟨s, r, rfl, h1, h2⟩ := hg
      have hfeed : feed (s :: r) ⟨i, none, [], none, false, true⟩ = ⟨s.call, s.bytes, s.key, .failed⟩ :: r := by simp [feed]
      show KeyAgree _ (feed _ ⟨i, none, [], none, false, true⟩) ∧ ∀ x ∈ feed _ ⟨i, none, [], none, false, true⟩, _
      rw [hfeed]
      refine ⟨fun x r' hx => ?_, fun x hx => ?_⟩
      · injection hx with hx _
        rw [← hx]; nofun
      · rcases List.mem_cons.mp hx with rfl | hx
        · have := hs s (List.mem_cons_self ..)
          exact ⟨this.1, fun h => h.elim (fun h => this.2 (.inl h)) nofun⟩
        · exact hs x (List.mem_cons_of_mem _ hx)
  | _ => exact quiet _ rfl rfl rfl (by simp) (by simp) rfl

theorem exec_mask {m : Bool} {env a st r st'} (h : exec env a st = some (r, st')) (hc : st.sock.config.maskOutgoingMessages = m) {ph} (hf : KeyFits m a ph) :
    st'.sock.config.maskOutgoingMessages = m ∧ KeyCan m a r := by
  cases a with
  | write d =>
    simp only [exec] at h
    split at h
    · cases h
    · split at h <;> (injection h with h; injection h with h h'; subst h'; exact ⟨hc, trivial⟩)
  | read n =>
    simp only [exec] at h
    split at h
    · cases h
    · injection h with h; injection h with h h'; subst h'; exact ⟨hc, trivial⟩
  | getConfig => injection h with h; injection h with h h'; subst h h'; exact ⟨hc, hc⟩
  | setConfig c => injection h with h; injection h with h h'; subst h'; exact ⟨hf, trivial⟩
  | _ => injection h with h; injection h with h h'; subst h'; exact ⟨hc, trivial⟩

/-- The threads of a pool, their sends, the configuration. -/
structure KeyInv (m : Bool) (log : List Entry) (p : Pool) : Prop where
  threads : ∀ i q, p.threads[i]? = some q → ∃ ph, KeyOk m q ph KeyOver ∧ KeyAgree ph (sendsOf i log)
  sends : ∀ i, ∀ s ∈ sendsOf i log, s.KeyedAs m
  config : p.st.sock.config.maskOutgoingMessages = m

/-- Whatever the step gives, it fits. -/
theorem KeyOk.fits {m} {a : Act} {k : a.Res → Prog α} {ph Q} (h : KeyOk m (.act a k) ph Q) : KeyFits m a ph := by
  cases a with
  | getConfig => trivial
  | read => exact trivial
  | write d => exact (h .zero trivial).1
  | random => exact (h default trivial).1
  | callback e => exact trivial
  | getListener => exact trivial
  | getLastOpcode => exact trivial
  | getListening => exact trivial
  | _ => exact (h () trivial).1

theorem key_inv (m : Bool) (env : Env) (p : Pool) (hp : ∀ t ∈ p.threads, KeyOk m t none KeyOver) (hc : p.st.sock.config.maskOutgoingMessages = m)
    (log : List Entry) (p' : Pool) (h : Pool.Logged env p log p') : KeyInv m log p' := by
  induction h with
  | refl => exact ⟨fun i q hq => ⟨none, hp q (List.mem_of_getElem? hq), (nofun : HeadOver [])⟩, fun i s hs => (by cases hs), hc⟩
  | @tail log ts st i a k r st' hlog ht he ih =>
    obtain ⟨ph, hok, hg⟩ := ih.threads i _ ht
    obtain ⟨hc', hcan⟩ := exec_mask he ih.config hok.fits
    obtain ⟨g1, g2⟩ := key_step m env i a ph _ hg (ih.sends i) st r st' he hok.fits
    have htask : (entry i a st st').task = i := rfl
    refine ⟨fun j q hq => ?_, fun j => ?_, hc'⟩
    · rw [sendsOf_snoc, htask]
      by_cases hji : i = j
      · subst hji
        rw [if_pos rfl]
        have hlt : i < ts.length := by
          rw [List.getElem?_eq_some_iff] at ht; exact ht.1
        have hq : (ts.set i (k r))[i]? = some q := hq
        rw [List.getElem?_set_self hlt] at hq
        injection hq with hq
        rw [← hq]
        exact ⟨_, (hok r hcan).2, g1⟩
      · rw [if_neg hji]
        have hq : (ts.set i (k r))[j]? = some q := hq
        rw [List.getElem?_set_ne hji] at hq
        exact ih.threads j q hq
    · rw [sendsOf_snoc, htask]
      by_cases hji : i = j
      · subst hji
        rw [if_pos rfl]
        exact g2
      · rw [if_neg hji]; exact ih.sends j

end OatWS.Threads
