import Verif.Spec.Threads
import Verif.Proofs.ConcurrentQuiet
import Verif.Proofs.SendLog
/-! Sends of threads: every program of the library sends whole frames, if nothing fails. -/

namespace OatWS.Threads
open RFC6455 Async Prog

variable {α β : Type}

/-- A send in progress: the call, what it has written, the position of its key. -/
structure Doing where
  call : SendCall
  bytes : List UInt8
  key : Option Nat

/-- The frame of a send. -/
def Doing.frame (env : Env) (d : Doing) : Frame :=
  { fin := d.call.content.1, opcode := d.call.content.2.1.toNat % 16, maskKey := d.key.map (maskBytesAt env), payload := d.call.content.2.2 }

/-- The phase of a thread: not sending, or in the middle of a send. -/
abbrev Ph := Option Doing

/-- What a step does to the phase. `p` is the position of the random source before the step. -/
def after (p : Nat) : (a : Act) → a.Res → Ph → Ph
  | .call c, _, _ => some ⟨c, [], none⟩
  | .write d, .wrote n, some s => some ⟨s.call, s.bytes ++ d.take n, s.key⟩
  | .random, _, some s => some ⟨s.call, s.bytes, some p⟩
  | .returned _, _, _ => none
  | _, _, ph => ph

/-- When the step is in order. -/
def Fits (env : Env) : (a : Act) → a.Res → Ph → Prop
  | .call _, _, ph => ph = none
  | .read _, _, ph => ph = none
  | .write d, r, ph => ∃ s, ph = some s ∧ ∀ n, r = .wrote n → Small s.call → s.bytes ++ d.take n <+: (s.frame env).encode
  | .random, _, ph => ∃ s, ph = some s ∧ s.bytes = [] ∧ s.key = none
  | .returned true, _, ph => ∃ s, ph = some s ∧ (Small s.call → s.bytes = (s.frame env).encode)
  | .returned false, _, ph => ∃ s, ph = some s ∧ (Small s.call → s.bytes.length < (s.frame env).encode.length)
  | _, _, _ => True

/-- Possible results of a step. -/
def Can (env : Env) (p : Nat) : (a : Act) → a.Res → Prop
  | .write d, .wrote n => n ≤ d.length
  | .random, m => m = ⟨env.rng p, env.rng (p + 1), env.rng (p + 2), env.rng (p + 3)⟩
  | _, _ => True

/-- All steps of the program are in order, whatever their results; `Q`: what holds at the end. -/
def Ok (env : Env) : Prog α → Ph → (Except Err α → Ph → Prop) → Prop
  | .ret a, ph, Q => Q (.ok a) ph
  | .throw e, ph, Q => Q (.error e) ph
  | .ub _, _, _ => True
  | .stuck, _, _ => True
  | .act a k, ph, Q => ∀ r p, Can env p a r → Fits env a r ph ∧ Ok env (k r) (after p a r ph) Q

theorem Ok.mono {env} {p : Prog α} {ph Q Q'} (h : Ok env p ph Q) (hq : ∀ x ph, Q x ph → Q' x ph) : Ok env p ph Q' := by
  induction p generalizing ph with
  | ret a => exact hq _ _ h
  | throw e => exact hq _ _ h
  | ub u => trivial
  | stuck => trivial
  | act a k ih => exact fun r p hc => ⟨(h r p hc).1, ih r (h r p hc).2⟩

theorem Ok.andThen {env} {p : Prog α} {f : α → Prog β} {ph Q Q'} (h : Ok env p ph Q) (h1 : ∀ a ph, Q (.ok a) ph → Ok env (f a) ph Q')
    (h2 : ∀ e ph, Q (.error e) ph → Q' (.error e) ph) : Ok env (Prog.andThen p f) ph Q' := by
  induction p generalizing ph with
  | ret a => exact h1 _ _ h
  | throw e => exact h2 _ _ h
  | ub u => trivial
  | stuck => trivial
  | act a k ih => exact fun r p hc => ⟨(h r p hc).1, ih r (h r p hc).2⟩

theorem Ok.catching {env} {p : Prog α} {f : Err → Prog α} {ph Q Q'} (h : Ok env p ph Q) (h1 : ∀ a ph, Q (.ok a) ph → Q' (.ok a) ph)
    (h2 : ∀ e ph, Q (.error e) ph → Ok env (f e) ph Q') : Ok env (Prog.catching p f) ph Q' := by
  induction p generalizing ph with
  | ret a => exact h1 _ _ h
  | throw e => exact h2 _ _ h
  | ub u => trivial
  | stuck => trivial
  | act a k ih => exact fun r p hc => ⟨(h r p hc).1, ih r (h r p hc).2⟩

/-- Not sending at the end. -/
def Over (_ : Except Err α) (ph : Ph) : Prop := ph = none

/-! ## Sends -/

/-- In the middle of a send of `c` with key `key`; `left` of the frame is still to be written. -/
def At (env : Env) (c : SendCall) (key : Option Nat) (left : List UInt8) (ph : Ph) : Prop :=
  ∃ bytes, ph = some ⟨c, bytes, key⟩ ∧ (Small c → bytes ++ left = (Doing.frame env ⟨c, bytes, key⟩).encode)

/-- It has failed: not everything was written. -/
def Broken (env : Env) (c : SendCall) (ph : Ph) : Prop := ∃ key left, left ≠ [] ∧ At env c key left ph

theorem ok_writeExact {env c key} (fuel : Nat) (data rest : List UInt8) (n : Nat) (ph : Ph) (h : At env c key (data ++ rest) ph) :
    Ok env (writeExactT fuel data n) ph fun x ph => ∃ left m, left <:+ data ∧ x = .ok m ∧ m + left.length = n + data.length ∧ At env c key (left ++ rest) ph := by
  induction fuel generalizing data n ph with
  | zero =>
    cases data with
    | nil => exact ⟨[], n, List.suffix_rfl, rfl, rfl, h⟩
    | cons b bs => trivial
  | succ fuel ih =>
    cases data with
    | nil => exact ⟨[], n, List.suffix_rfl, rfl, rfl, h⟩
    | cons b bs =>
      intro r p hc
      obtain ⟨bytes, rfl, hb⟩ := h
      have here : At env c key ((b :: bs) ++ rest) (some ⟨c, bytes, key⟩) := ⟨bytes, rfl, hb⟩
      refine ⟨⟨_, rfl, ?_⟩, ?_⟩
      · rintro k rfl hs
        have := hb hs
        refine ⟨(b :: bs).drop k ++ rest, ?_⟩
        rw [List.append_assoc, ← List.append_assoc (List.take _ _), List.take_append_drop]
        exact this
      · cases r with
        | wrote k =>
          have h2 : k ≤ (b :: bs).length := hc
          refine (ih ((b :: bs).drop k) (n + k) _ ⟨bytes ++ (b :: bs).take k, rfl, fun hs => ?_⟩).mono ?_
          · rw [List.append_assoc, ← List.append_assoc (List.take _ _), List.take_append_drop]
            exact hb hs
          · rintro x ph ⟨left, m, h3, h4, h5, h6⟩
            refine ⟨left, m, h3.trans (List.drop_suffix _ _), h4, ?_, h6⟩
            rw [List.length_drop] at h5
            omega
        | retry => exact ih _ _ _ here
        | zero => exact ⟨_, n, List.suffix_rfl, rfl, rfl, here⟩
        | broken => exact ⟨_, n, List.suffix_rfl, rfl, rfl, here⟩

/-- After writing a part of the frame. -/
def Part (env : Env) (c : SendCall) (key : Option Nat) (rest : List UInt8) (x : Except Err α) (good : α → Prop) (ph : Ph) : Prop :=
  match x with
  | .ok a => good a ∧ At env c key rest ph
  | .error _ => Broken env c ph

theorem ok_writeExpect {env c key} (fuel : Nat) (data rest : List UInt8) (e : Err) (ph : Ph) (h : At env c key (data ++ rest) ph) :
    Ok env (writeExpectT fuel data data.length e) ph fun x ph => Part env c key rest x (fun _ => True) ph := by
  refine (ok_writeExact fuel data rest 0 ph h).andThen ?_ ?_
  · rintro a ph ⟨left, m, h1, h2, h3, h4⟩
    injection h2 with h2
    subst h2
    by_cases hl : left = []
    · subst hl
      rw [if_neg (by simp at h3; omega)]
      exact ⟨trivial, h4⟩
    · have : 0 < left.length := List.length_pos_iff.mpr hl
      rw [if_pos (by omega)]
      exact ⟨key, _, by simp [hl], h4⟩
  · rintro e ph ⟨left, m, h1, h2, h3⟩
    cases h2

theorem store16_length (e : Endian) (x : UInt16) : (store16 e x).length = 2 := by cases e <;> rfl
theorem store32_length (e : Endian) (x : UInt32) : (store32 e x).length = 4 := by cases e <;> rfl

theorem ok_writeLength {env c key} (fuel : Nat) (h : Header) (rest : List UInt8) (ph : Ph) (hat : At env c key (lenBytes env h ++ rest) ph) :
    Ok env (writeLengthT env fuel h (packHeaderBits h).2) ph fun x ph => Part env c key rest x (fun _ => True) ph := by
  unfold writeLengthT
  unfold lenBytes at hat
  by_cases h2 : (packHeaderBits h).2 = 2
  · rw [if_pos h2] at hat ⊢
    have := ok_writeExpect (env := env) (c := c) (key := key) fuel _ rest .len2Write ph hat
    rw [store16_length] at this
    exact this
  · rw [if_neg h2] at hat ⊢
    by_cases h3 : (packHeaderBits h).2 = 3
    · rw [if_pos h3] at hat ⊢
      have := ok_writeExpect (env := env) (c := c) (key := key) fuel _ rest .len3Write ph hat
      rw [List.length_append, store32_length, store32_length] at this
      exact this
    · rw [if_neg h3] at hat ⊢
      exact ⟨trivial, hat⟩

theorem ok_writeMask {env c key} (fuel : Nat) (h : Header) (rest : List UInt8) (ph : Ph) (hat : At env c key (keyBytes h ++ rest) ph) :
    Ok env (writeMaskT fuel h) ph fun x ph => Part env c key rest x (fun _ => True) ph := by
  unfold writeMaskT
  unfold keyBytes at hat
  cases hm : h.hasMask with
  | false =>
    rw [hm] at hat
    exact ⟨trivial, hat⟩
  | true =>
    rw [hm] at hat
    exact ok_writeExpect (env := env) (c := c) (key := key) fuel _ rest .maskWrite ph hat

theorem ok_writeFrameHeader {env c key} (fuel : Nat) (h : Header) (rest : List UInt8) (ph : Ph)
    (hat : At env c key (bbBytes env h ++ (lenBytes env h ++ (keyBytes h ++ rest))) ph) :
    Ok env (writeFrameHeaderT env fuel h) ph fun x ph => Part env c key rest x (fun _ => True) ph := by
  have h1 := ok_writeExpect (env := env) (c := c) (key := key) fuel _ _ .headerWrite ph hat
  have hl : (bbBytes env h).length = 2 := store16_length _ _
  rw [hl] at h1
  refine h1.andThen (fun _ ph h => ?_) (fun _ ph h => h)
  refine (ok_writeLength fuel _ _ ph h.2).andThen (fun _ ph h => ?_) (fun _ ph h => h)
  exact ok_writeMask fuel _ _ ph h.2

/-- A socket with this configuration at this position of the random source. -/
def sockAt (cfg : Config) (p : Nat) : Sock := { Sock.new cfg ⟨[], []⟩ with rngPos := p }

theorem frame_is (env : Env) (cfg : Config) (p : Nat) (c : SendCall) (bytes : List UInt8) (m : List UInt8) (hm : m = c.content.2.2) :
    frameFor env (sockAt cfg p) c.content.1 c.content.2.1 (some m) =
      Doing.frame env ⟨c, bytes, if cfg.maskOutgoingMessages then some p else none⟩ := by
  subst hm
  unfold frameFor Doing.frame
  cases hc : cfg.maskOutgoingMessages <;> simp [sockAt, Sock.new, hc]

theorem at_start (env : Env) (cfg : Config) (p : Nat) (c : SendCall) (m : Option (List UInt8)) (hm : m.getD [] = c.content.2.2) :
    At env c (if cfg.maskOutgoingMessages then some p else none)
      (rawBytes env (filledHeader env (sockAt cfg p) c.content.1 c.content.2.1 (m.getD []).length) m)
      (some ⟨c, [], if cfg.maskOutgoingMessages then some p else none⟩) := by
  refine ⟨[], rfl, fun hs => ?_⟩
  rw [rawBytes_eq env _ _ _ m (by rw [hm]; exact hs), frame_is env cfg p c [] _ hm]
  rfl

theorem ok_sendFrameHeader {env} (fuel : Nat) (c : SendCall) (m : Option (List UInt8)) (h0 : Header) (hm : m.getD [] = c.content.2.2) :
    Ok env (sendFrameHeaderT env fuel h0 c.content.1 c.content.2.1 (m.getD []).length) (some ⟨c, [], none⟩)
      fun x ph => match x with
        | .ok h => ∃ key, At env c key (payBytes h m) ph
        | .error _ => Broken env c ph := by
  intro cfg p _
  refine ⟨trivial, ?_⟩
  have hat := fun p => at_start env cfg p c m hm
  show Ok env (if cfg.maskOutgoingMessages = true then _ else _) (some ⟨c, [], none⟩) _
  cases hc : cfg.maskOutgoingMessages with
  | false =>
    rw [if_neg (by simp)]
    have hat := hat 0
    have hh : filledHeader env (sockAt cfg 0) c.content.1 c.content.2.1 (m.getD []).length =
        { (default : Header) with fin := c.content.1, rsv1 := false, rsv2 := false, rsv3 := false, opcode := c.content.2.1, hasMask := false, payloadLength := ((m.getD []).length : Int) } := by
      unfold filledHeader sockAt Sock.new
      simp only [hc]
      rfl
    rw [hh, hc] at hat
    have hat : At env c _ (rawBytes env { h0 with fin := c.content.1, rsv1 := false, rsv2 := false, rsv3 := false, opcode := c.content.2.1, hasMask := false, payloadLength := ((m.getD []).length : Int) } m) _ := hat
    refine (ok_writeFrameHeader fuel _ _ _ hat).andThen (fun _ ph h => ⟨_, h.2⟩) (fun _ ph h => h)
  | true =>
    rw [if_pos rfl]
    intro mk q hcan
    refine ⟨⟨_, rfl, rfl, rfl⟩, ?_⟩
    have hcan : mk = ⟨env.rng q, env.rng (q + 1), env.rng (q + 2), env.rng (q + 3)⟩ := hcan
    have hat := hat q
    have hh : filledHeader env (sockAt cfg q) c.content.1 c.content.2.1 (m.getD []).length =
        { (default : Header) with fin := c.content.1, rsv1 := false, rsv2 := false, rsv3 := false, opcode := c.content.2.1, hasMask := true, payloadLength := ((m.getD []).length : Int), mask := mk } := by
      unfold filledHeader sockAt Sock.new
      simp only [hc, hcan]
      rfl
    rw [hh, hc] at hat
    refine (ok_writeFrameHeader fuel _ _ _ hat).andThen (fun _ ph h => ⟨_, h.2⟩) (fun _ ph h => h)

/-- At the end of a send method: `b` tells whether everything was written. -/
def SentAs (env : Env) (c : SendCall) (x : Except Err Bool) (ph : Ph) : Prop :=
  match x with
  | .ok true => ∃ key, At env c key [] ph
  | _ => Broken env c ph

theorem ok_sendOneFrame {env} (fuel : Nat) (c : SendCall) (m : Option (List UInt8)) (hm : m.getD [] = c.content.2.2) :
    Ok env (sendOneFrameT env fuel c.content.1 c.content.2.1 m) (some ⟨c, [], none⟩) (SentAs env c) := by
  have nopay : ∀ h, payBytes h none = [] := fun h => by unfold payBytes; cases h.hasMask <;> rfl
  match m with
  | none =>
    refine (ok_sendFrameHeader (env := env) fuel c none default hm).andThen (fun h ph => ?_) (fun _ ph h => h)
    rintro ⟨key, h⟩
    rw [nopay] at h
    exact ⟨key, h⟩
  | some [] =>
    refine (ok_sendFrameHeader (env := env) fuel c (some []) default hm).andThen (fun h ph => ?_) (fun _ ph h => h)
    rintro ⟨key, h⟩
    exact ⟨key, by rwa [show payBytes _ (some []) = [] from nopay _] at h⟩
  | some (b :: bs) =>
    refine (ok_sendFrameHeader (env := env) fuel c (some (b :: bs)) default hm).andThen (fun h ph => ?_) (fun _ ph h => h)
    rintro ⟨key, hat⟩
    have body : ∀ d, d.length = (b :: bs).length → At env c key d ph →
        Ok env (Prog.andThen (writeExactT fuel d 0) fun res => .ret (decide (res = (b :: bs).length))) ph (SentAs env c) := by
      intro d hd hat
      have hat : At env c key (d ++ []) ph := by rwa [List.append_nil]
      refine (ok_writeExact fuel d [] 0 ph hat).andThen ?_ ?_
      · rintro a ph ⟨left, n, h1, h2, h3, h4⟩
        injection h2 with h2
        subst h2
        rw [List.append_nil] at h4
        by_cases hl : left = []
        · subst hl
          have : a = (b :: bs).length := by simp at h3; omega
          show SentAs env c (.ok (decide (a = _))) ph
          rw [decide_eq_true this]
          exact ⟨key, h4⟩
        · have : 0 < left.length := List.length_pos_iff.mpr hl
          show SentAs env c (.ok (decide (a = _))) ph
          rw [decide_eq_false (by omega)]
          exact ⟨key, left, hl, h4⟩
      · rintro e ph ⟨left, n, h1, h2, h3⟩
        cases h2
    unfold payBytes at hat
    cases hk : h.hasMask with
    | true =>
      rw [hk] at hat
      show Ok env (if true = true then _ else _) ph _
      rw [if_pos rfl]
      by_cases hl : (b :: bs).length ≥ 2 ^ 31
      · rw [if_pos hl]; trivial
      · rw [if_neg hl]
        exact body _ (by rw [xorMask_eq, applyKeyFrom_length]) hat
    | false =>
      rw [hk] at hat
      exact body _ rfl hat

theorem ok_sendOrStop {env} (fuel : Nat) (c : SendCall) (op : UInt8) (m : Option (List UInt8)) (hop : c.content.2.1 = op) (hfin : c.content.1 = true)
    (hm : m.getD [] = c.content.2.2) : Ok env (sendOrStopT env fuel op m) (some ⟨c, [], none⟩) (SentAs env c) := by
  have := ok_sendOneFrame (env := env) fuel c m hm
  rw [hop, hfin] at this
  refine this.andThen (fun ok ph h => ?_) (fun _ ph h => h)
  cases ok with
  | true => exact h
  | false => exact fun _ _ _ => ⟨trivial, h⟩

theorem ok_send {env} (fuel : Nat) (c : SendCall) : Ok env (sendT env fuel c) (some ⟨c, [], none⟩) (SentAs env c) := by
  cases c with
  | oneFrame fin op m => exact ok_sendOneFrame fuel (.oneFrame fin op m) m rfl
  | close code m => exact ok_sendOrStop fuel (.close code m) _ _ rfl rfl (close_payload env code m)
  | closeEmpty => exact ok_sendOrStop fuel .closeEmpty _ _ rfl rfl rfl
  | ping m => exact ok_sendOrStop fuel (.ping m) _ _ rfl rfl rfl
  | pong m => exact ok_sendOrStop fuel (.pong m) _ _ rfl rfl rfl
  | text m => exact ok_sendOrStop fuel (.text m) _ _ rfl rfl rfl
  | binary m => exact ok_sendOrStop fuel (.binary m) _ _ rfl rfl rfl

theorem fits_failed {env c ph} (h : Broken env c ph) : Fits env (.returned false) () ph := by
  obtain ⟨key, left, hl, bytes, rfl, hb⟩ := h
  refine ⟨_, rfl, fun hs => ?_⟩
  rw [← hb hs, List.length_append]
  have : 0 < left.length := List.length_pos_iff.mpr hl
  exact Nat.lt_add_of_pos_right this

theorem ok_userSend {env} (fuel : Nat) (c : SendCall) (catches : Bool) : Ok env (userSendT env fuel c catches) none Over := by
  intro _ _ _
  refine ⟨rfl, ?_⟩
  refine Ok.andThen (Q := Over) ?_ ?_ ?_
  · refine Ok.catching (Q := fun x ph => match x with | .ok _ => ph = none | .error _ => Broken env c ph)
      ((ok_send fuel c).andThen (fun ok ph h => ?_) (fun _ ph h => h)) (fun _ _ h => h) (fun e ph h => ?_)
    · intro _ _ _
      cases ok with
      | true =>
        obtain ⟨key, bytes, rfl, hb⟩ := h
        refine ⟨⟨_, rfl, fun hs => ?_⟩, rfl⟩
        have := hb hs
        rw [List.append_nil] at this
        exact this
      | false => exact ⟨fits_failed h, rfl⟩
    · exact fun _ _ _ => ⟨fits_failed h, rfl⟩
  · intro r ph h
    cases r with
    | none => exact h
    | some e => cases catches <;> exact h
  · exact fun _ _ h => h

/-! ## Everything else -/

theorem ok_userOp {env} (fuel : Nat) (op : UserOp) : Ok env (userOpT env fuel op) none Over := by
  cases op with
  | send c b => exact ok_userSend fuel c b
  | throw => rfl
  | _ => exact fun _ _ _ => ⟨trivial, rfl⟩

theorem ok_userOps {env} (fuel : Nat) (ops : List UserOp) : Ok env (userOpsT env fuel ops) none Over := by
  induction ops with
  | nil => rfl
  | cons op ops ih => exact (ok_userOp fuel op).andThen (fun _ _ h => (show _ = none from h) ▸ ih) (fun _ _ h => h)

theorem ok_callListener {env} (fuel : Nat) (mk : Nat → Event) : Ok env (callListenerT env fuel mk) none Over := by
  intro l _ _
  refine ⟨trivial, ?_⟩
  match l with
  | none => rfl
  | some l => exact fun tr _ _ => ⟨trivial, ok_userOps fuel _⟩

/-- `p; f` where neither sends at the beginning or the end. -/
theorem Ok.seq {env} {p : Prog α} {f : α → Prog β} (h : Ok env p none Over) (h1 : ∀ a, Ok env (f a) none Over) : Ok env (Prog.andThen p f) none Over :=
  h.andThen (fun a _ h => (show _ = none from h) ▸ h1 a) (fun _ _ h => h)

theorem ok_readExact {env} (fuel need acc) : Ok env (readExactT fuel need acc) none Over := by
  induction fuel generalizing need acc with
  | zero => cases need <;> trivial
  | succ fuel ih =>
    cases need with
    | zero => rfl
    | succ need =>
      intro r _ _
      refine ⟨rfl, ?_⟩
      cases r with
      | data bs => exact ih _ _
      | retry => exact ih _ _
      | zero => rfl
      | broken => rfl

theorem ok_readLength {env} (fuel m1) : Ok env (readLengthT env fuel m1) none Over := by
  unfold readLengthT
  split
  · rfl
  · split
    · refine (ok_readExact _ _ _).seq fun bs => ?_
      split <;> rfl
    · refine (ok_readExact _ _ _).seq fun bs => ?_
      split <;> rfl

theorem ok_readFrameHeader {env} (fuel h) : Ok env (readFrameHeaderT env fuel h) none Over := by
  refine (ok_readExact _ _ _).seq fun bs => ?_
  split
  · refine (ok_readLength _ _).seq fun len => ?_
    split
    · refine (ok_readExact _ _ _).seq fun bs => ?_
      split <;> rfl
    · rfl
  · rfl

theorem ok_readPayloadLoop {env} (fuel h short cap n progress acc) : Ok env (readPayloadLoopT env fuel h short cap n progress acc) none Over := by
  induction n generalizing progress acc with
  | zero =>
    unfold readPayloadLoopT
    split
    · trivial
    · rfl
  | succ n ih =>
    unfold readPayloadLoopT
    split
    · intro c _ _
      refine ⟨trivial, ?_⟩
      dsimp only
      generalize (if c.readBufferSize > h.payloadLength - progress then h.payloadLength - progress else c.readBufferSize) = want
      split
      · exact fun _ _ _ => ⟨rfl, trivial⟩
      · intro r _ _
        refine ⟨rfl, ?_⟩
        cases r with
        | data bs =>
          show Ok env (if _ then _ else _) none _
          split
          · trivial
          · split
            · exact ih _ _
            · exact (ok_callListener _ _).seq fun _ => ih _ _
        | retry => exact ih _ _
        | zero => rfl
        | broken => rfl
    · rfl

theorem ok_readPayload {env} (fuel h short) : Ok env (readPayloadT env fuel h short) none Over := by
  unfold readPayloadT
  split
  · rfl
  · intro c _ _
    refine ⟨trivial, ?_⟩
    show Ok env (if _ then _ else _) none _
    split
    · rfl
    · refine (ok_readPayloadLoop _ _ _ _ _ _ _).seq fun acc => ?_
      refine Ok.seq ?_ fun _ => rfl
      unfold endMarkerT
      split
      · exact ok_callListener _ _
      · rfl

theorem ok_checkForContinuation {env} (h) : Ok env (checkForContinuationT h) none Over := by
  intro v _ _
  refine ⟨trivial, ?_⟩
  show Ok env (if _ then _ else _) none _
  split
  · rfl
  · split <;> exact fun _ _ _ => ⟨trivial, rfl⟩

theorem ok_handleFrame {env} (fuel h) : Ok env (handleFrameT env fuel h) none Over := by
  have data : Ok env (Prog.andThen (readPayloadT env fuel h false) fun _ => .ret ()) none Over := (ok_readPayload _ _ _).seq fun _ => rfl
  have start : Ok env (Prog.andThen (checkForContinuationT h) fun ok =>
      if ok then Prog.andThen (readPayloadT env fuel h false) fun _ => .ret () else .throw .continuationExpected) none Over := by
    refine (ok_checkForContinuation _).seq fun ok => ?_
    split
    · exact data
    · rfl
  unfold handleFrameT
  split
  · intro v _ _
    refine ⟨trivial, ?_⟩
    show Ok env (if _ then _ else _) none _
    split
    · rfl
    · exact data
  · split
    · exact start
    · split
      · exact start
      · split
        · exact (ok_readPayload _ _ _).seq fun _ => ok_callListener _ _
        · split
          · exact (ok_readPayload _ _ _).seq fun _ => ok_callListener _ _
          · split
            · exact (ok_readPayload _ _ _).seq fun _ => ok_callListener _ _
            · rfl

theorem ok_listenLoop {env} (fuel n h) : Ok env (listenLoopT env fuel n h) none Over := by
  induction n generalizing h with
  | zero => trivial
  | succ n ih =>
    refine Ok.seq ((ok_readFrameHeader _ _).seq fun _ => (ok_handleFrame _ _).seq fun _ => rfl) fun h' => ?_
    split
    · intro b _ _
      refine ⟨trivial, ?_⟩
      show Ok env (if _ then _ else _) none _
      split
      · exact ih _
      · rfl
    · rfl

theorem ok_listen {env} (fuel h) : Ok env (listenT env fuel h) none Over := by
  refine Ok.catching (Q := Over) (fun _ _ _ => ⟨trivial, ok_listenLoop _ _ _⟩) (fun _ _ h => h) (fun _ _ h => ?_)
  rw [show _ = none from h]; rfl

theorem ok_iterateFrame {env} (fuel h) : Ok env (iterateFrameT env fuel h) none Over :=
  (ok_readFrameHeader _ _).seq fun _ => (ok_handleFrame _ _).seq fun _ => rfl

/-- A send between its marks. -/
theorem ok_marked {env} {p : Prog Bool} (c : SendCall) (h : Ok env p (some ⟨c, [], none⟩) (SentAs env c)) :
    Ok env (.act (.call c) fun _ => Prog.catching (Prog.andThen p fun ok => .act (.returned ok) fun _ => .ret ok)
      (fun e => .act (.returned false) fun _ => .throw e)) none Over := by
  intro _ _ _
  refine ⟨rfl, ?_⟩
  refine Ok.catching (Q := fun x ph => match x with | .ok _ => ph = none | .error _ => Broken env c ph)
    (h.andThen (fun ok ph h => ?_) (fun _ ph h => h)) (fun _ _ h => h) (fun e ph h => ?_)
  · intro _ _ _
    cases ok with
    | true =>
      obtain ⟨key, bytes, rfl, hb⟩ := h
      refine ⟨⟨_, rfl, fun hs => ?_⟩, rfl⟩
      have := hb hs
      rw [List.append_nil] at this
      exact this
    | false => exact ⟨fits_failed h, rfl⟩
  · exact fun _ _ _ => ⟨fits_failed h, rfl⟩

theorem pieceBytes_length (h : Header) (n : Nat) (p : List UInt8) : (pieceBytes h n p).length = p.length := by
  unfold pieceBytes
  split
  · rw [xorMask_eq, applyKeyFrom_length]
  · rfl

theorem xorMask_append (m : Mask) (n : Nat) (a b : List UInt8) : xorMask m n (a ++ b) = xorMask m n a ++ xorMask m (n + a.length) b := by
  induction a generalizing n with
  | nil => rfl
  | cons x a ih =>
    show (_ :: xorMask m (n + 1) (a ++ b)) = _ :: (xorMask m (n + 1) a ++ _)
    rw [ih, List.length_cons, Nat.add_assoc, Nat.add_comm 1]

theorem pieceBytes_append (h : Header) (n : Nat) (a b : List UInt8) : pieceBytes h n (a ++ b) = pieceBytes h n a ++ pieceBytes h (n + a.length) b := by
  unfold pieceBytes
  split
  · exact xorMask_append _ _ _ _
  · rfl

theorem ok_writePieces {env c key} (fuel : Nat) (h : Header) (n : Nat) (pieces : List (List UInt8)) (ph : Ph)
    (hat : At env c key (pieceBytes h n pieces.flatten) ph) : Ok env (writePiecesT fuel h n pieces) ph (SentAs env c) := by
  induction pieces generalizing n ph with
  | nil =>
    refine ⟨key, ?_⟩
    have e : pieceBytes h n ([] : List (List UInt8)).flatten = [] := by unfold pieceBytes; cases h.hasMask <;> rfl
    rwa [e] at hat
  | cons p ps ih =>
    rw [List.flatten_cons, pieceBytes_append] at hat
    refine (ok_writeExact fuel _ _ 0 ph hat).andThen ?_ ?_
    · rintro a ph ⟨left, m, h1, h2, h3, h4⟩
      injection h2 with h2
      subst h2
      rw [pieceBytes_length] at h3
      by_cases hl : left = []
      · subst hl
        rw [if_pos (by simp at h3; omega)]
        exact ih _ _ h4
      · have : 0 < left.length := List.length_pos_iff.mpr hl
        rw [if_neg (by omega)]
        exact ⟨key, _, by simp [hl], h4⟩
    · rintro e ph ⟨left, m, h1, h2, h3⟩
      cases h2

theorem ok_stream {env} (fuel : Nat) (c : SendCall) (h : Header) (pieces : List (List UInt8)) (hp : pieces.flatten = c.content.2.2) :
    Ok env (streamT env fuel c h c.content.1 c.content.2.1 pieces) none Over := by
  refine ok_marked c ((ok_sendFrameHeader (env := env) fuel c (some pieces.flatten) h hp).andThen (fun h ph => ?_) (fun _ ph h => h))
  rintro ⟨key, h4⟩
  exact ok_writePieces fuel h 0 pieces ph h4

theorem AppCode.ok {env fuel} {α : Type} {p : Prog α} (h : AppCode env fuel p) : Ok env p none Over := by
  induction h with
  | ret a => rfl
  | throw e => rfl
  | bind _ _ h1 h2 => exact h1.seq h2
  | catching _ _ h1 h2 => exact Ok.catching h1 (fun _ _ h => h) (fun e _ h => (show _ = none from h) ▸ h2 e)
  | listen h => exact ok_listen fuel h
  | iterate h => exact ok_iterateFrame fuel h
  | code ops => exact ok_userOps fuel ops
  | send c => exact ok_marked c (ok_send fuel c)
  | stream c h pieces hp => exact ok_stream fuel c h pieces hp
  | getListener => exact fun _ _ _ => ⟨trivial, rfl⟩

theorem AppThread.ok {env fuel p} (h : AppThread env fuel p) : Ok env p none Over := AppCode.ok h

end OatWS.Threads
