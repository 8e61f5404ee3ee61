import Verif.Spec.Defined
import Verif.Proofs.SendFrame
/-! Threads that keep to the size of the read buffer never do anything undefined. -/

namespace OatWS.Threads
open Prog

/-- The step may give this, if the read buffer has one of these sizes. -/
def May (S : Int → Prop) : (a : Act) → a.Res → Prop
  | .getConfig, (c : Config) => S c.readBufferSize
  | .read n, (r : ReadRes) => ∀ bs, r = .data bs → bs.length ≤ n
  | _, _ => True

/-- Nothing undefined happens, whatever the steps give; the size is set to `B` only. -/
def Free (B : Int) {α : Type} : Prog α → Prop
  | .ub _ => False
  | .act (.setConfig c) k => c.readBufferSize = B ∧ ∀ r : (Act.setConfig c).Res, Free B (k r)
  | .act a k => ∀ r : a.Res, Free B (k r)
  | _ => True

/-- Nothing undefined happens if the size always is `B`; the size is set to `B` only. -/
def Steady (B : Int) {α : Type} : Prog α → Prop
  | .ub _ => False
  | .act (.setConfig c) k => c.readBufferSize = B ∧ ∀ r : (Act.setConfig c).Res, Steady B (k r)
  | .act a k => ∀ r : a.Res, May (· = B) a r → Steady B (k r)
  | _ => True

/-- Nothing undefined happens: the size, as far as this thread sets it, is `s`; others may set it to `B`. The post-conditions are for returns and exceptions. -/
def Sound (B : Int) {α : Type} : Prog α → Int → (α → Int → Prop) → (Int → Prop) → Prop
  | .ret a, s, Q, _ => Q a s
  | .throw _, s, _, E => E s
  | .ub _, _, _, _ => False
  | .stuck, _, _, _ => True
  | .act (.setConfig c) k, _, Q, E => ∀ r : (Act.setConfig c).Res, Sound B (k r) c.readBufferSize Q E
  | .act a k, s, Q, E => ∀ r : a.Res, May (fun n => n = s ∨ n = B) a r → Sound B (k r) s Q E

variable {B : Int} {α β : Type}

theorem Free.steady {p : Prog α} (h : Free B p) : Steady B p := by
  induction p with
  | act a k ih =>
    cases a with
    | setConfig c => exact ⟨h.1, fun r => ih r (h.2 r)⟩
    | _ => exact fun r _ => ih r (h r)
  | ub u => exact h
  | _ => trivial

theorem May.same {a : Act} {r : a.Res} (h : May (fun n => n = B ∨ n = B) a r) : May (· = B) a r := by
  cases a with
  | getConfig => exact Or.elim h id id
  | read n => exact h
  | _ => trivial

theorem Steady.sound {p : Prog α} (h : Steady B p) : Sound B p B (fun _ s => s = B) (fun s => s = B) := by
  induction p with
  | act a k ih =>
    cases a with
    | setConfig c => intro r; rw [h.1]; exact ih r (h.2 r)
    | _ => exact fun r hr => ih r (h r hr.same)
  | ub u => exact h
  | ret a => rfl
  | throw e => rfl
  | stuck => trivial

theorem Sound.mono {p : Prog α} {s Q E Q' E'} (h : Sound B p s Q E) (hq : ∀ a s, Q a s → Q' a s) (he : ∀ s, E s → E' s) : Sound B p s Q' E' := by
  induction p generalizing s with
  | ret a => exact hq _ _ h
  | throw e => exact he _ h
  | ub u => exact h
  | stuck => trivial
  | act a k ih =>
    cases a with
    | setConfig c => exact fun r => ih r (h r)
    | _ => exact fun r hr => ih r (h r hr)

/-- Code that sets the size to nothing but `B`, for every `B`, does not set it. -/
theorem Free.sound {p : Prog α} (h : ∀ B, Free B p) (s B : Int) : Sound B p s (fun _ s' => s' = s) (fun s' => s' = s) := by
  induction p with
  | act a k ih =>
    cases a with
    | setConfig c => exact absurd ((h 0).1.symm.trans (h 1).1) (by decide)
    | _ => exact fun r _ => ih r fun B => h B r
  | ub u => exact h 0
  | ret a => rfl
  | throw e => rfl
  | stuck => trivial

theorem Sound.andThen {p : Prog α} {f : α → Prog β} {s Q E} (h : Sound B p s (fun a s => Sound B (f a) s Q E) E) : Sound B (Prog.andThen p f) s Q E := by
  induction p generalizing s with
  | ret a => exact h
  | throw e => exact h
  | ub u => exact h
  | stuck => trivial
  | act a k ih =>
    cases a with
    | setConfig c => exact fun r => ih r (h r)
    | _ => exact fun r hr => ih r (h r hr)

theorem Free.andThen {p : Prog α} {f : α → Prog β} (h : Free B p) (h' : ∀ a, Free B (f a)) : Free B (Prog.andThen p f) := by
  induction p with
  | ret a => exact h' a
  | ub u => exact h
  | act a k ih =>
    cases a with
    | setConfig c => exact ⟨h.1, fun r => ih r (h.2 r)⟩
    | _ => exact fun r => ih r (h r)
  | _ => trivial

theorem Free.catching {p : Prog α} {f : Err → Prog α} (h : Free B p) (h' : ∀ a, Free B (f a)) : Free B (Prog.catching p f) := by
  induction p with
  | throw e => exact h' e
  | ub u => exact h
  | act a k ih =>
    cases a with
    | setConfig c => exact ⟨h.1, fun r => ih r (h.2 r)⟩
    | _ => exact fun r => ih r (h r)
  | _ => trivial

theorem Steady.andThen {p : Prog α} {f : α → Prog β} (h : Steady B p) (h' : ∀ a, Steady B (f a)) : Steady B (Prog.andThen p f) := by
  induction p with
  | ret a => exact h' a
  | ub u => exact h
  | act a k ih =>
    cases a with
    | setConfig c => exact ⟨h.1, fun r => ih r (h.2 r)⟩
    | _ => exact fun r hr => ih r (h r hr)
  | _ => trivial

theorem Steady.catching {p : Prog α} {f : Err → Prog α} (h : Steady B p) (h' : ∀ a, Steady B (f a)) : Steady B (Prog.catching p f) := by
  induction p with
  | throw e => exact h' e
  | ub u => exact h
  | act a k ih =>
    cases a with
    | setConfig c => exact ⟨h.1, fun r => ih r (h.2 r)⟩
    | _ => exact fun r hr => ih r (h r hr)
  | _ => trivial

/-! ## Sending -/

theorem free_writeExact (B : Int) (fuel : Nat) (data : List UInt8) (n : Nat) : Free B (writeExactT fuel data n) := by
  induction fuel generalizing data n with
  | zero => cases data <;> trivial
  | succ fuel ih =>
    cases data with
    | nil => trivial
    | cons b bs =>
      intro r
      cases r with
      | wrote k => exact ih _ _
      | retry => exact ih _ _
      | _ => trivial

theorem free_writeExpect (B : Int) (fuel : Nat) (data : List UInt8) (size : Nat) (e : Err) : Free B (writeExpectT fuel data size e) := by
  refine (free_writeExact B fuel data 0).andThen fun a => ?_
  split <;> trivial

theorem free_writeFrameHeader (B : Int) (env : Env) (fuel : Nat) (h : Header) : Free B (writeFrameHeaderT env fuel h) := by
  refine (free_writeExpect B _ _ _ _).andThen fun _ => Free.andThen ?_ fun _ => ?_
  · unfold writeLengthT
    split
    · exact free_writeExpect B _ _ _ _
    · split
      · exact free_writeExpect B _ _ _ _
      · trivial
  · unfold writeMaskT
    split
    · exact free_writeExpect B _ _ _ _
    · trivial

theorem free_sendFrameHeader (B : Int) (env : Env) (fuel : Nat) (h : Header) (fin : Bool) (op : UInt8) (size : Int) : Free B (sendFrameHeaderT env fuel h fin op size) := by
  intro (c : Config)
  show Free B (if c.maskOutgoingMessages = true then _ else _)
  split
  · exact fun (_ : Mask) => (free_writeFrameHeader B _ _ _).andThen fun _ => trivial
  · exact (free_writeFrameHeader B _ _ _).andThen fun _ => trivial

theorem free_sendOneFrame (B : Int) (env : Env) (fuel : Nat) (fin : Bool) (op : UInt8) (message : Option (List UInt8)) (hs : (message.getD []).length < 2 ^ 31) :
    Free B (sendOneFrameT env fuel fin op message) := by
  unfold sendOneFrameT
  split
  · rename_i b bs
    refine (free_sendFrameHeader B _ _ _ _ _ _).andThen fun h => ?_
    split
    · rw [if_neg (show ¬ (b :: bs).length ≥ 2 ^ 31 from Nat.not_le.mpr hs)]
      exact (free_writeExact B _ _ _).andThen fun _ => trivial
    · exact (free_writeExact B _ _ _).andThen fun _ => trivial
  · exact (free_sendFrameHeader B _ _ _ _ _ _).andThen fun _ => trivial

theorem free_sendOrStop (B : Int) (env : Env) (fuel : Nat) (op : UInt8) (message : Option (List UInt8)) (hs : (message.getD []).length < 2 ^ 31) :
    Free B (sendOrStopT env fuel op message) := by
  refine (free_sendOneFrame B env fuel true op message hs).andThen fun ok => ?_
  split
  · trivial
  · exact fun _ => trivial

theorem free_send (B : Int) (env : Env) (fuel : Nat) (c : SendCall) (hs : c.content.2.2.length < 2 ^ 31) : Free B (sendT env fuel c) := by
  cases c with
  | oneFrame fin op message => exact free_sendOneFrame B env fuel fin op message hs
  | close code message =>
    refine free_sendOrStop B env fuel _ _ ?_
    show (store16 env.host (hton16 env.host code) ++ message.getD []).length < 2 ^ 31
    rw [close_payload]
    exact hs
  | closeEmpty => exact free_sendOrStop B env fuel _ _ hs
  | ping message => exact free_sendOrStop B env fuel _ _ hs
  | pong message => exact free_sendOrStop B env fuel _ _ hs
  | text message => exact free_sendOrStop B env fuel _ _ hs
  | binary message => exact free_sendOrStop B env fuel _ _ hs

theorem free_userSend (B : Int) (env : Env) (fuel : Nat) (c : SendCall) (catches : Bool) (hs : c.content.2.2.length < 2 ^ 31) : Free B (userSendT env fuel c catches) := by
  intro _
  refine Free.andThen (Free.catching ((free_send B env fuel c hs).andThen fun ok => fun _ => trivial) fun e => fun _ => trivial) fun r => ?_
  split
  · trivial
  · split <;> trivial

theorem free_userOp (env : Env) (fuel : Nat) (op : UserOp) (h : op.Careful B) : Free B (userOpT env fuel op) := by
  cases op with
  | stopListening => exact fun _ => trivial
  | setListener l => exact fun _ => trivial
  | setConfig c => exact ⟨h, fun _ => trivial⟩
  | send c catches => exact free_userSend B env fuel c catches h
  | throw => trivial

theorem free_userOps (env : Env) (fuel : Nat) (ops : List UserOp) (h : ∀ op ∈ ops, op.Careful B) : Free B (userOpsT env fuel ops) := by
  induction ops with
  | nil => trivial
  | cons op ops ih =>
    exact (free_userOp env fuel op (h op (List.mem_cons_self ..))).andThen fun _ => ih fun o ho => h o (List.mem_cons_of_mem _ ho)

theorem free_callListener (env : Env) (hc : env.Careful B) (fuel : Nat) (mk : Nat → Event) : Free B (callListenerT env fuel mk) := by
  intro (l : Option Nat)
  cases l with
  | none => trivial
  | some l => exact fun (tr : List Event) => free_userOps env fuel _ (hc tr)

/-! ## Receiving -/

theorem free_readExact (B : Int) (fuel need : Nat) (acc : List UInt8) : Free B (readExactT fuel need acc) := by
  induction fuel generalizing need acc with
  | zero => cases need <;> trivial
  | succ fuel ih =>
    cases need with
    | zero => trivial
    | succ need =>
      intro r
      cases r with
      | data bs => exact ih _ _
      | retry => exact ih _ _
      | _ => trivial

theorem free_readLength (B : Int) (env : Env) (fuel : Nat) (l : UInt8) : Free B (readLengthT env fuel l) := by
  unfold readLengthT
  split
  · trivial
  · split
    · refine (free_readExact B _ _ _).andThen fun _ => ?_
      split <;> trivial
    · refine (free_readExact B _ _ _).andThen fun _ => ?_
      split <;> trivial

theorem free_readFrameHeader (B : Int) (env : Env) (fuel : Nat) (h : Header) : Free B (readFrameHeaderT env fuel h) := by
  refine (free_readExact B _ _ _).andThen fun _ => ?_
  split
  · refine (free_readLength B _ _ _).andThen fun _ => ?_
    split
    · refine (free_readExact B _ _ _).andThen fun _ => ?_
      split <;> trivial
    · trivial
  · trivial

theorem steady_loop (env : Env) (hc : env.Careful B) (hB : 0 ≤ B) (fuel : Nat) (h : Header) (short : Bool) (n : Nat) (progress : Int) (acc : List UInt8) :
    Steady B (readPayloadLoopT env fuel h short B.toNat n progress acc) := by
  induction n generalizing progress acc with
  | zero =>
    unfold readPayloadLoopT
    split <;> trivial
  | succ n ih =>
    unfold readPayloadLoopT
    split
    · rename_i hp
      intro (c : Config) (hs : c.readBufferSize = B)
      dsimp only
      rw [hs]
      have hd : 0 ≤ (if B > h.payloadLength - progress then h.payloadLength - progress else B) ∧ (if B > h.payloadLength - progress then h.payloadLength - progress else B) ≤ B := by
        split <;> omega
      generalize (if B > h.payloadLength - progress then h.payloadLength - progress else B) = want at hd
      rw [if_neg (by omega)]
      intro (r : ReadRes) hr
      cases r with
      | data bs =>
        have hl : bs.length ≤ want.toNat := hr bs rfl
        dsimp only
        rw [if_neg (by omega)]
        generalize (if h.hasMask = true then _ else _) = chunk
        split
        · exact ih _ _
        · exact (free_callListener env hc fuel _).steady.andThen fun _ => ih _ _
      | retry => exact ih _ _
      | _ => trivial
    · trivial

theorem steady_readPayload (env : Env) (hc : env.Careful B) (fuel : Nat) (h : Header) (short : Bool) : Steady B (readPayloadT env fuel h short) := by
  unfold readPayloadT
  split
  · trivial
  · intro (c : Config) (hs : c.readBufferSize = B)
    dsimp only
    rw [hs]
    split
    · trivial
    · refine (steady_loop env hc (by omega) fuel h short fuel 0 []).andThen fun acc => Steady.andThen ?_ fun _ => trivial
      unfold endMarkerT
      split
      · exact (free_callListener env hc fuel _).steady
      · trivial

theorem free_checkForContinuation (B : Int) (h : Header) : Free B (checkForContinuationT h) := by
  intro (v : Int)
  show Free B (if _ then _ else _)
  split
  · trivial
  · split <;> exact fun _ => trivial

theorem steady_handleFrame (env : Env) (hc : env.Careful B) (fuel : Nat) (h : Header) : Steady B (handleFrameT env fuel h) := by
  have hd : Steady B (Prog.andThen (readPayloadT env fuel h false) fun _ => .ret ()) := (steady_readPayload env hc fuel h false).andThen fun _ => trivial
  have hk : Steady B (Prog.andThen (checkForContinuationT h) fun ok =>
      if ok then Prog.andThen (readPayloadT env fuel h false) fun _ => .ret () else .throw .continuationExpected) := by
    refine (free_checkForContinuation B h).steady.andThen fun ok => ?_
    split
    · exact hd
    · trivial
  have hs : ∀ mk : List UInt8 → Nat → Event, Steady B (Prog.andThen (readPayloadT env fuel h true) fun data => callListenerT env fuel (mk data)) :=
    fun mk => (steady_readPayload env hc fuel h true).andThen fun _ => (free_callListener env hc fuel _).steady
  unfold handleFrameT
  split
  · intro (v : Int) _
    show Steady B (if _ then _ else _)
    split
    · trivial
    · exact hd
  · split
    · exact hk
    · split
      · exact hk
      · split
        · exact hs fun data l => .onClose l (closeArgs env data).1 (closeArgs env data).2
        · split
          · exact hs fun data l => .onPing l data
          · split
            · exact hs fun data l => .onPong l data
            · trivial

theorem steady_listenLoop (env : Env) (hc : env.Careful B) (fuel n : Nat) (h : Header) : Steady B (listenLoopT env fuel n h) := by
  induction n generalizing h with
  | zero => trivial
  | succ n ih =>
    refine Steady.andThen ((free_readFrameHeader B env fuel h).steady.andThen fun h' => (steady_handleFrame env hc fuel h').andThen fun _ => trivial) fun h' => ?_
    split
    · intro (b : Bool) _
      show Steady B (if _ then _ else _)
      split
      · exact ih _
      · trivial
    · trivial

theorem steady_listen (env : Env) (hc : env.Careful B) (fuel : Nat) (h : Header) : Steady B (listenT env fuel h) :=
  Steady.catching (fun _ _ => steady_listenLoop env hc fuel fuel h) fun _ => trivial

theorem free_marked {p : Prog Bool} (c : SendCall) (h : Free B p) :
    Free B (.act (.call c) fun _ => Prog.catching (Prog.andThen p fun ok => .act (.returned ok) fun _ => .ret ok) (fun e => .act (.returned false) fun _ => .throw e)) :=
  fun _ => Free.catching (h.andThen fun _ => fun _ => trivial) fun _ => fun _ => trivial

theorem free_writePieces (B : Int) (fuel : Nat) (h : Header) (n : Nat) (pieces : List (List UInt8)) : Free B (writePiecesT fuel h n pieces) := by
  induction pieces generalizing n with
  | nil => trivial
  | cons p ps ih =>
    refine (free_writeExact B _ _ _).andThen fun res => ?_
    split
    · exact ih _
    · trivial

theorem free_helper {env : Env} {fuel : Nat} {α : Type} {q : Prog α} (h : HelperCode (UserOp.Careful B) env fuel q) : Free B q := by
  induction h with
  | ret a => trivial
  | throw e => trivial
  | bind _ _ h1 h2 => exact h1.andThen h2
  | catching _ _ h1 h2 => exact h1.catching h2
  | code ops ho => exact free_userOps env fuel ops ho
  | send c ho => exact free_marked c (free_send B env fuel c ho)
  | stream c h pieces _ _ => exact free_marked c ((free_sendFrameHeader B env fuel h _ _ _).andThen fun h' => free_writePieces B fuel h' 0 pieces)

theorem CarefulCode.steady {env : Env} (hc : env.Careful B) {fuel : Nat} {α : Type} {p : Prog α} (h : CarefulCode env fuel B p) : Steady B p := by
  induction h with
  | ret a => trivial
  | throw e => trivial
  | bind _ _ h1 h2 => exact h1.andThen h2
  | catching _ _ h1 h2 => exact h1.catching h2
  | listen h => exact steady_listen env hc fuel h
  | iterate h => exact (free_readFrameHeader B env fuel h).steady.andThen fun h' => (steady_handleFrame env hc fuel h').andThen fun _ => trivial
  | code ops hops => exact (free_userOps env fuel ops hops).steady
  | send c hs => exact (free_marked c (free_send B env fuel c hs)).steady
  | stream c h fin op pieces =>
    exact (free_marked c ((free_sendFrameHeader B env fuel h fin op _).andThen fun h' => free_writePieces B fuel h' 0 pieces)).steady
  | getListener => exact fun _ _ => trivial

theorem CarefulThread.steady {env : Env} (hc : env.Careful B) {fuel : Nat} {p : Prog Unit} (h : CarefulThread env fuel B p) : Steady B p := CarefulCode.steady hc h

/-! ## Steps of a pool -/

theorem exec_may {env : Env} {a : Act} {st st' : St} {r : a.Res} (h : exec env a st = some (r, st')) (S : Int → Prop) (hs : S st.sock.config.readBufferSize) : May S a r := by
  cases a with
  | getConfig => injection h with h; injection h with h1 h2; subst h1; exact hs
  | read n =>
    dsimp only [exec] at h
    split at h
    · cases h
    · rename_i o sched _
      injection h with h; injection h with h1 h2
      intro bs hb
      subst h1
      revert hb
      unfold lowRead
      cases o with
      | upTo m =>
        dsimp only
        split
        · exact fun hb => (by cases hb)
        · intro hb
          injection hb with hb
          subst hb
          rw [List.length_take]
          omega
      | _ => exact fun hb => (by cases hb)
  | _ => trivial

theorem exec_size {env : Env} {a : Act} {st st' : St} {r : a.Res} (h : exec env a st = some (r, st')) :
    st'.sock.config = st.sock.config ∨ ∃ c, a = .setConfig c ∧ st'.sock.config = c := by
  cases a with
  | setConfig c => injection h with h; injection h with h1 h2; subst h2; exact .inr ⟨c, rfl, rfl⟩
  | read n =>
    dsimp only [exec] at h
    split at h
    · cases h
    · injection h with h; injection h with h1 h2; subst h2; exact .inl rfl
  | write n =>
    dsimp only [exec] at h
    split at h
    · cases h
    · split at h <;> (injection h with h; injection h with h1 h2; subst h2; exact .inl rfl)
  | _ => injection h with h; injection h with h1 h2; subst h2; exact .inl rfl

theorem Steady.step {env : Env} {a : Act} {k : a.Res → Prog α} {st st' : St} {r : a.Res} (h : Steady B (.act a k)) (hs : st.sock.config.readBufferSize = B)
    (he : exec env a st = some (r, st')) : Steady B (k r) ∧ st'.sock.config.readBufferSize = B := by
  have hm := exec_may he (· = B) hs
  rcases exec_size he with e | ⟨c, rfl, e⟩
  · rw [e]
    refine ⟨?_, hs⟩
    cases a with
    | setConfig c => exact h.2 r
    | _ => exact h r hm
  · rw [e]
    exact ⟨h.2 r, h.1⟩

/-- All threads are steady, and the size is `B`. -/
structure SteadyPool (B : Int) (p : Pool) : Prop where
  threads : ∀ q ∈ p.threads, Steady B q
  size : p.st.sock.config.readBufferSize = B

theorem SteadyPool.step {env : Env} {ts : List (Prog Unit)} {st st' : St} {i : Nat} {a : Act} {k : a.Res → Prog Unit} {r : a.Res} (h : SteadyPool B ⟨ts, st⟩) (hi : ts[i]? = some (.act a k))
    (he : exec env a st = some (r, st')) : SteadyPool B ⟨ts.set i (k r), st'⟩ := by
  obtain ⟨h1, h2⟩ := Steady.step (h.threads _ (List.mem_of_getElem? hi)) h.size he
  refine ⟨fun q hq => ?_, h2⟩
  rcases List.mem_or_eq_of_mem_set hq with hq | rfl
  · exact h.threads q hq
  · exact h1

theorem SteadyPool.steps {env : Env} {p p' : Pool} (h : SteadyPool B p) (hs : Pool.Steps env p p') : SteadyPool B p' := by
  induction hs with
  | refl => exact h
  | tail _ hs ih => cases hs with | mk hi he => exact ih.step hi he

theorem SteadyPool.defined {p : Pool} (h : SteadyPool B p) (u : UB) : Prog.ub u ∉ p.threads := fun hu => h.threads _ hu

/-! ## Sessions -/

theorem sound_userOps (env : Env) (fuel : Nat) (B : Int) (ops : List UserOp) (h : ∀ c catches, .send c catches ∈ ops → c.content.2.2.length < 2 ^ 31) (s : Int) :
    Sound B (userOpsT env fuel ops) s (fun _ s' => s' = sizeAfter ops s) (fun _ => True) := by
  induction ops generalizing s with
  | nil => rfl
  | cons op ops ih =>
    have ih := fun s => ih (fun c b hc => h c b (List.mem_cons_of_mem _ hc)) s
    refine Sound.andThen ?_
    cases op with
    | stopListening => exact fun _ _ => ih s
    | setListener l => exact fun _ _ => ih s
    | setConfig c => exact fun _ => ih _
    | throw => exact trivial
    | send c catches =>
      refine Sound.mono (Free.sound (free_userSend · env fuel c catches (h c catches (List.mem_cons_self ..))) s B) ?_ fun _ _ => trivial
      rintro _ s' rfl
      exact ih _

/-- The thread of the session, and the others. -/
structure SessionSound (B : Int) (p : Pool) : Prop where
  threads : ∃ t others s, p.threads = t :: others ∧ Sound B t s (fun _ _ => True) (fun _ => True) ∧ (∀ q ∈ others, Free B q) ∧
    (p.st.sock.config.readBufferSize = s ∨ p.st.sock.config.readBufferSize = B)

theorem CarefulSession.sound {env : Env} {fuel : Nat} {created destroyed : List UserOp} {p : Pool} (h : CarefulSession env fuel B created destroyed p) : SessionSound B p := by
  obtain ⟨hd, others, e, ho⟩ := h.threads
  refine ⟨_, _, p.st.sock.config.readBufferSize, e, ?_, ?_, .inl rfl⟩
  · refine Sound.andThen (Sound.mono (sound_userOps env fuel B created h.created _) ?_ fun _ _ => trivial)
    rintro _ _ rfl
    rw [h.size]
    refine Sound.andThen (Sound.mono (steady_listen env h.callbacks fuel hd).sound ?_ fun _ _ => trivial)
    rintro _ _ rfl
    exact Sound.mono (free_userOps env fuel destroyed h.destroyed).steady.sound (fun _ _ _ => trivial) fun _ _ => trivial
  · exact fun q hq => free_helper (ho q hq)

theorem SessionSound.step {env : Env} {ts : List (Prog Unit)} {st st' : St} {i : Nat} {a : Act} {k : a.Res → Prog Unit} {r : a.Res} (h : SessionSound B ⟨ts, st⟩) (hi : ts[i]? = some (.act a k))
    (he : exec env a st = some (r, st')) : SessionSound B ⟨ts.set i (k r), st'⟩ := by
  obtain ⟨t, others, s, e, h1, h2, h3⟩ := h.threads
  have e : ts = t :: others := e
  subst e
  have h3 : st.sock.config.readBufferSize = s ∨ st.sock.config.readBufferSize = B := h3
  cases i with
  | zero =>
    injection hi with hi
    subst hi
    have hm := exec_may he (fun n => n = s ∨ n = B) h3
    rcases exec_size he with ec | ⟨c, rfl, ec⟩
    · have hsame : ∀ s', Sound B (k r) s' (fun _ _ => True) (fun _ => True) → (st'.sock.config.readBufferSize = s' ∨ st'.sock.config.readBufferSize = B) →
          SessionSound B ⟨(Prog.act a k :: others).set 0 (k r), st'⟩ := fun s' hs hz => ⟨_, _, s', rfl, hs, h2, hz⟩
      cases a with
      | setConfig c =>
        injection he with he
        injection he with he1 he2
        subst he2
        exact hsame c.readBufferSize (h1 r) (.inl rfl)
      | _ => exact hsame s (h1 r hm) (by rw [ec]; exact h3)
    · exact ⟨_, _, c.readBufferSize, rfl, h1 r, h2, .inl (by rw [← ec])⟩
  | succ i =>
    have hi : others[i]? = some (.act a k) := hi
    have hf := h2 _ (List.mem_of_getElem? hi)
    refine ⟨t, others.set i (k r), s, rfl, h1, ?_, ?_⟩
    · intro q hq
      rcases List.mem_or_eq_of_mem_set hq with hq | rfl
      · exact h2 q hq
      · cases a with
        | setConfig c => exact hf.2 r
        | _ => exact hf r
    · rcases exec_size he with ec | ⟨c, rfl, ec⟩
      · show st'.sock.config.readBufferSize = s ∨ st'.sock.config.readBufferSize = B
        rw [ec]; exact h3
      · refine .inr ?_
        show st'.sock.config.readBufferSize = B
        rw [ec]; exact hf.1

theorem SessionSound.defined {p : Pool} (h : SessionSound B p) (u : UB) : Prog.ub u ∉ p.threads := by
  intro hu
  obtain ⟨t, others, s, e, h1, h2, _⟩ := h.threads
  rw [e] at hu
  rcases List.mem_cons.mp hu with rfl | hu
  · exact h1
  · exact h2 _ hu

end OatWS.Threads
