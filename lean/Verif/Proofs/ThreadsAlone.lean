import Verif.Model.Threads
import Verif.Proofs.Listen
/-! # A thread alone does what the blocking model says -/

namespace OatWS.Threads
open Prog

variable {α β : Type}

theorem run_act (env : Env) (a : Act) (k : a.Res → Prog α) (st : St) :
    run env (.act a k) st = (exec env a st).elim (.block, st) (fun x => run env (k x.1) x.2) := rfl

theorem run_andThen (env : Env) (p : Prog α) (f : α → Prog β) : run env (andThen p f) = P.bind (run env p) (fun a => run env (f a)) := by
  funext st
  induction p generalizing st with
  | ret a => rfl
  | throw e => rfl
  | ub u => rfl
  | stuck => rfl
  | act a k ih =>
    rw [andThen, run_act, P.bind_apply, run_act]
    cases exec env a st with
    | none => rfl
    | some x => exact ih x.1 x.2

theorem run_catching (env : Env) (p : Prog α) (f : Err → Prog α) (st : St) :
    run env (catching p f) st = match run env p st with
      | (.throw e, st') => run env (f e) st'
      | r => r := by
  induction p generalizing st with
  | ret a => rfl
  | throw e => rfl
  | ub u => rfl
  | stuck => rfl
  | act a k ih =>
    rw [catching, run_act, run_act]
    cases exec env a st with
    | none => rfl
    | some x => exact ih x.1 x.2

theorem run_getConfig (env : Env) (k : Config → Prog α) (st : St) : run env (.act .getConfig k) st = run env (k st.sock.config) st := rfl
theorem run_getLast (env : Env) (k : Int → Prog α) (st : St) : run env (.act .getLastOpcode k) st = run env (k st.sock.lastOpcode) st := rfl
theorem run_getListening (env : Env) (k : Bool → Prog α) (st : St) : run env (.act .getListening k) st = run env (k st.sock.listening) st := rfl
theorem run_getListener (env : Env) (k : Option Nat → Prog α) (st : St) : run env (.act .getListener k) st = run env (k st.sock.listener) st := rfl
theorem run_random (env : Env) (k : Mask → Prog α) (st : St) : run env (.act .random k) st =
    run env (k ⟨env.rng st.sock.rngPos, env.rng (st.sock.rngPos + 1), env.rng (st.sock.rngPos + 2), env.rng (st.sock.rngPos + 3)⟩)
      { st with sock := { st.sock with rngPos := st.sock.rngPos + 4 } } := rfl

/-- Enough repetitions for all loops. -/
def Enough (N : Nat) (st : St) : Prop := st.inp.sched.length ≤ N ∧ st.sock.out.sched.length ≤ N

theorem exec_sched {env a st r st'} (h : exec env a st = some (r, st')) :
    st'.inp.sched.length ≤ st.inp.sched.length ∧ st'.sock.out.sched.length ≤ st.sock.out.sched.length := by
  cases a with
  | read n =>
    simp only [exec] at h
    split at h
    · cases h
    · rename_i o sched e
      injection h with h; injection h with _ h; subst h
      rw [e]; simp
  | write d =>
    simp only [exec] at h
    split at h
    · cases h
    · rename_i o sched e
      split at h <;>
      · injection h with h; injection h with _ h; subst h
        simp only; rw [e]; simp
  | _ =>
    injection h with h; injection h with _ h; subst h
    exact ⟨Nat.le_refl _, Nat.le_refl _⟩

theorem run_sched (env : Env) (p : Prog α) (st : St) :
    (run env p st).2.inp.sched.length ≤ st.inp.sched.length ∧ (run env p st).2.sock.out.sched.length ≤ st.sock.out.sched.length := by
  induction p generalizing st with
  | act a k ih =>
    rw [run_act]
    cases h : exec env a st with
    | none => exact ⟨Nat.le_refl _, Nat.le_refl _⟩
    | some x =>
      have h1 := exec_sched h
      have h2 := ih x.1 x.2
      exact ⟨Nat.le_trans h2.1 h1.1, Nat.le_trans h2.2 h1.2⟩
  | _ => exact ⟨Nat.le_refl _, Nat.le_refl _⟩

/-- The program, run alone where loops have enough repetitions, does `m`. -/
def Does (env : Env) (N : Nat) (p : Prog α) (m : P St α) : Prop := ∀ st, Enough N st → run env p st = m st

theorem Does.andThen {env N} {p : Prog α} {m : P St α} {f : α → Prog β} {g : α → P St β} (h1 : Does env N p m)
    (h2 : ∀ a, Does env N (f a) (g a)) : Does env N (Prog.andThen p f) (P.bind m g) := by
  intro st hN
  rw [run_andThen]
  unfold P.bind
  have hs := run_sched env p st
  rw [h1 st hN] at hs ⊢
  revert hs
  rcases m st with ⟨x, st'⟩
  intro hs
  cases x with
  | ret a => exact h2 a st' ⟨Nat.le_trans hs.1 hN.1, Nat.le_trans hs.2 hN.2⟩
  | throw e => rfl
  | block => rfl
  | ub u => rfl

theorem Does.ret {env N} (a : α) : Does env N (.ret a) (pure a : P St α) := fun _ _ => rfl
theorem Does.throw {env N} (e : Err) : Does env N (.throw e : Prog α) (P.fail e) := fun _ _ => rfl
theorem Does.ub {env N} (u : UB) : Does env N (.ub u : Prog α) (P.undef u) := fun _ _ => rfl

theorem Does.ite {env N} {c : Prop} [Decidable c] {p q : Prog α} {m n : P St α} (h1 : c → Does env N p m) (h2 : ¬ c → Does env N q n) :
    Does env N (if c then p else q) (if c then m else n) := by
  by_cases hc : c
  · rw [if_pos hc, if_pos hc]; exact h1 hc
  · rw [if_neg hc, if_neg hc]; exact h2 hc

theorem Does.congr {env N} {p : Prog α} {m n : P St α} (h : Does env N p m) (e : m = n) : Does env N p n := e ▸ h

/-! ## Sending -/

theorem liftSock_bind' (m : P Sock α) (f : α → P Sock β) : liftSock (P.bind m f) = P.bind (liftSock m) (fun a => liftSock (f a)) := by
  funext st
  unfold liftSock P.bind
  simp only
  rcases m st.sock with ⟨x, s'⟩
  cases x <;> rfl

theorem liftSock_ite {c : Prop} [Decidable c] (m n : P Sock α) : liftSock (if c then m else n) = if c then liftSock m else liftSock n := by
  by_cases hc : c
  · rw [if_pos hc, if_pos hc]
  · rw [if_neg hc, if_neg hc]

theorem run_writeExactT (env : Env) (data : List UInt8) (n fuel : Nat) (st : St) (hf : st.sock.out.sched.length ≤ fuel) :
    run env (writeExactT fuel data n) st = match writeExact st.sock.out.sched st.sock.out.written data n with
      | (.wrote m, out') => (.ret m, { st with sock := { st.sock with out := out' } })
      | (.blocked, out') => (.block, { st with sock := { st.sock with out := out' } }) := by
  induction fuel generalizing data n st with
  | zero =>
    have hs : st.sock.out.sched = [] := List.length_eq_zero_iff.mp (by omega)
    cases data with
    | nil => rw [writeExact]; rfl
    | cons b bs =>
      rcases st with ⟨⟨_, _, _, _, ⟨_, _⟩, _, _⟩, _⟩
      simp only at hs
      subst hs
      rfl
  | succ fuel ih =>
    cases data with
    | nil => rw [writeExact]; rfl
    | cons b bs =>
      rcases st with ⟨⟨cfg, lis, lo, ls, ⟨wr, sched⟩, rp, tr⟩, inp⟩
      cases sched with
      | nil => rfl
      | cons o sched =>
        simp only [List.length_cons] at hf
        rw [writeExactT, run_act]
        simp only
        cases o with
        | upTo m => exact ih _ _ _ (by simpa using hf)
        | retry => exact ih _ _ _ (by simpa using hf)
        | zero => rfl
        | broken => rfl

theorem does_writeExact (env : Env) (N : Nat) (data : List UInt8) : Does env N (writeExactT N data 0) (liftSock (connWriteExact data)) := by
  intro st hN
  rw [run_writeExactT env data 0 N st hN.2]
  unfold liftSock connWriteExact
  rcases writeExact st.sock.out.sched st.sock.out.written data 0 with ⟨r, out'⟩
  cases r <;> rfl

theorem does_writeExpect (env : Env) (N : Nat) (data : List UInt8) (size : Nat) (e : Err) :
    Does env N (writeExpectT N data size e) (liftSock (writeExpect data size e)) := by
  refine ((does_writeExact env N data).andThen (g := fun res => liftSock (if res ≠ size then P.fail e else pure ())) ?_).congr ?_
  · intro res
    rw [liftSock_ite]
    exact .ite (fun _ => .throw e) (fun _ => .ret ())
  · exact (liftSock_bind' _ _).symm

theorem does_writeLength (env : Env) (N : Nat) (h : Header) (sc : UInt8) : Does env N (writeLengthT env N h sc) (liftSock (writeLength env h sc)) := by
  unfold writeLengthT writeLength
  rw [liftSock_ite, liftSock_ite]
  exact .ite (fun _ => does_writeExpect env N _ _ _) (fun _ => .ite (fun _ => does_writeExpect env N _ _ _) (fun _ => .ret ()))

theorem does_writeMask (env : Env) (N : Nat) (h : Header) : Does env N (writeMaskT N h) (liftSock (writeMask h)) := by
  unfold writeMaskT writeMask
  rw [liftSock_ite]
  exact .ite (fun _ => does_writeExpect env N _ _ _) (fun _ => .ret ())

theorem does_writeFrameHeader (env : Env) (N : Nat) (h : Header) : Does env N (writeFrameHeaderT env N h) (liftSock (writeFrameHeader env h)) := by
  refine (Does.andThen (does_writeExpect env N _ _ _) (fun _ => Does.andThen (does_writeLength env N _ _) (fun _ => does_writeMask env N _))).congr ?_
  show _ = liftSock (P.bind _ fun _ => P.bind _ fun _ => _)
  rw [liftSock_bind']
  congr 1
  funext _
  rw [liftSock_bind']

theorem does_header (env : Env) (N : Nat) (h : Header) : Does env N (Prog.andThen (writeFrameHeaderT env N h) fun _ => .ret h)
    (liftSock (P.bind (writeFrameHeader env h) fun _ => P.pure h)) := by
  rw [liftSock_bind']
  exact (does_writeFrameHeader env N h).andThen fun _ => .ret h

theorem does_sendFrameHeader (env : Env) (N : Nat) (h : Header) (fin : Bool) (op : UInt8) (size : Int) :
    Does env N (sendFrameHeaderT env N h fin op size) (liftSock (sendFrameHeader env h fin op size)) := by
  intro st hN
  unfold sendFrameHeaderT
  rw [run_getConfig]
  cases hm : st.sock.config.maskOutgoingMessages with
  | false =>
    have e : sendFrameHeader env h fin op size st.sock = P.bind (writeFrameHeader env { h with fin := fin, rsv1 := false, rsv2 := false, rsv3 := false, opcode := op, hasMask := false, payloadLength := size }) (fun _ => P.pure { h with fin := fin, rsv1 := false, rsv2 := false, rsv3 := false, opcode := op, hasMask := false, payloadLength := size }) st.sock := by
      unfold sendFrameHeader
      simp only [P.bind_def, P.bind_apply, P.get, hm, Bool.false_eq_true, if_false]
      rfl
    simp only [Bool.false_eq_true, if_false]
    refine (does_header env N _ st hN).trans ?_
    unfold liftSock
    rw [e]
  | true =>
    have e : sendFrameHeader env h fin op size st.sock = P.bind (writeFrameHeader env { h with fin := fin, rsv1 := false, rsv2 := false, rsv3 := false, opcode := op, hasMask := true, payloadLength := size, mask := ⟨env.rng st.sock.rngPos, env.rng (st.sock.rngPos + 1), env.rng (st.sock.rngPos + 2), env.rng (st.sock.rngPos + 3)⟩ }) (fun _ => P.pure { h with fin := fin, rsv1 := false, rsv2 := false, rsv3 := false, opcode := op, hasMask := true, payloadLength := size, mask := ⟨env.rng st.sock.rngPos, env.rng (st.sock.rngPos + 1), env.rng (st.sock.rngPos + 2), env.rng (st.sock.rngPos + 3)⟩ }) { st.sock with rngPos := st.sock.rngPos + 4 } := by
      unfold sendFrameHeader
      simp only [P.bind_def, P.bind_apply, P.get, hm, if_true, generateMaskForFrame]
      rfl
    simp only [if_true]
    rw [run_random]
    refine (does_header env N _ { st with sock := { st.sock with rngPos := st.sock.rngPos + 4 } } hN).trans ?_
    unfold liftSock
    rw [e]

theorem does_sendOneFrame (env : Env) (N : Nat) (fin : Bool) (op : UInt8) (m : Option (List UInt8)) :
    Does env N (sendOneFrameT env N fin op m) (liftSock (sendOneFrame env fin op m)) := by
  have short : Does env N (Prog.andThen (sendFrameHeaderT env N default fin op 0) fun _ => .ret true)
      (liftSock (P.bind (sendFrameHeader env default fin op 0) fun _ => P.pure true)) := by
    rw [liftSock_bind']
    exact (does_sendFrameHeader env N _ _ _ _).andThen fun _ => .ret true
  match m with
  | none => exact short
  | some [] => exact short
  | some (b :: bs) =>
    show Does env N _ (liftSock (P.bind _ _))
    rw [liftSock_bind']
    refine (does_sendFrameHeader env N _ _ _ _).andThen fun h => ?_
    have w : ∀ d, Does env N (Prog.andThen (writeExactT N d 0) fun res => .ret (decide (res = (b :: bs).length)))
        (liftSock (P.bind (connWriteExact d) fun res => P.pure (decide (res = (b :: bs).length)))) := by
      intro d
      rw [liftSock_bind']
      exact (does_writeExact env N d).andThen fun _ => .ret _
    rw [liftSock_ite, liftSock_ite]
    exact .ite (fun _ => .ite (fun _ => .ub _) (fun _ => w _)) (fun _ => w _)

/-- The send wrappers return nothing; the program returns `true`. -/
def yes (m : P Sock Unit) : P Sock Bool := P.bind m fun _ => P.pure true

theorem does_sendOrStop (env : Env) (N : Nat) (op : UInt8) (m : Option (List UInt8)) :
    Does env N (sendOrStopT env N op m) (liftSock (yes (sendOrStop env op m))) := by
  have e : yes (sendOrStop env op m) = P.bind (sendOneFrame env true op m) (fun ok => if ok then P.pure true else P.bind stopListening fun _ => P.fail .sendFailed) := by
    funext s
    unfold yes sendOrStop
    simp only [P.bind_def, P.bind_apply]
    rcases sendOneFrame env true op m s with ⟨(a | _ | _ | _), s'⟩
    · cases a <;> rfl
    all_goals rfl
  rw [e, liftSock_bind']
  refine (does_sendOneFrame env N _ _ _).andThen fun ok => ?_
  rw [liftSock_ite]
  exact .ite (fun _ => .ret true) (fun _ st _ => rfl)

/-- `send`, with the result of `sendOneFrame`. -/
def sendRes (env : Env) : SendCall → P Sock Bool
  | .oneFrame fin opcode message => sendOneFrame env fin opcode message
  | c => yes (send env c)

theorem sendRes_send (env : Env) (c : SendCall) : P.bind (sendRes env c) (fun _ => P.pure ()) = send env c := by
  have h : ∀ m : P Sock Unit, P.bind (yes m) (fun _ => P.pure ()) = m := by
    intro m
    funext s
    unfold yes
    simp only [P.bind_apply]
    rcases m s with ⟨(a | _ | _ | _), s'⟩ <;> rfl
  cases c with
  | oneFrame => rfl
  | _ => exact h _

theorem does_send (env : Env) (N : Nat) (c : SendCall) : Does env N (sendT env N c) (liftSock (sendRes env c)) := by
  cases c with
  | oneFrame fin op m => exact does_sendOneFrame env N fin op m
  | _ => exact does_sendOrStop env N _ _

theorem does_userSend (env : Env) (N : Nat) (c : SendCall) (catches : Bool) :
    Does env N (userSendT env N c catches) (liftSock (runUserOp env (.send c catches))) := by
  intro st hN
  show run env (Prog.andThen (catching _ _) _) st = _
  rw [run_andThen, P.bind_apply, run_catching, run_andThen, P.bind_apply, does_send env N c st hN]
  have e : runUserOp env (.send c catches) st.sock = match P.bind (sendRes env c) (fun _ => P.pure ()) st.sock with
    | (.throw e, s') => if catches then (.ret (), s') else (.throw e, s')
    | r => r := by rw [sendRes_send]; rfl
  unfold liftSock
  rw [e, P.bind_apply]
  rcases sendRes env c st.sock with ⟨(a | _ | _ | _), s'⟩
  · rfl
  · cases catches <;> rfl
  · rfl
  · rfl

theorem does_userOp (env : Env) (N : Nat) (op : UserOp) : Does env N (userOpT env N op) (liftSock (runUserOp env op)) := by
  cases op with
  | send c b => exact does_userSend env N c b
  | _ => exact fun _ _ => rfl

theorem does_userOps (env : Env) (N : Nat) (ops : List UserOp) : Does env N (userOpsT env N ops) (liftSock (runUserOps env ops)) := by
  induction ops with
  | nil => exact .ret ()
  | cons op ops ih =>
    show Does env N _ (liftSock (P.bind _ _))
    rw [liftSock_bind']
    exact (does_userOp env N op).andThen fun _ => ih

theorem does_callListener (env : Env) (N : Nat) (mk : Nat → Event) : Does env N (callListenerT env N mk) (liftSock (callListener env mk)) := by
  intro st hN
  rcases st with ⟨⟨cfg, lis, lo, ls, out, rp, tr⟩, inp⟩
  cases lis with
  | none => rfl
  | some l => exact does_userOps env N (env.react (tr ++ [mk l])) ⟨⟨cfg, some l, lo, ls, out, rp, tr ++ [mk l]⟩, inp⟩ hN

/-! ## Receiving -/

theorem run_readExactT (env : Env) (need fuel : Nat) (acc : List UInt8) (st : St) (hf : st.inp.sched.length ≤ fuel) :
    run env (readExactT fuel need acc) st = match readExact st.inp.sched st.inp.bytes need acc with
      | (.got bs, inp') => (.ret bs, { st with inp := inp' })
      | (.blocked, inp') => (.block, { st with inp := inp' }) := by
  induction fuel generalizing need acc st with
  | zero =>
    cases need with
    | zero => rw [readExact]; rfl
    | succ need =>
      rcases st with ⟨sk, ⟨bytes, sched⟩⟩
      have hs : sched = [] := List.length_eq_zero_iff.mp (by simpa using hf)
      subst hs
      rfl
  | succ fuel ih =>
    cases need with
    | zero => rw [readExact]; rfl
    | succ need =>
      rcases st with ⟨sk, ⟨bytes, sched⟩⟩
      cases sched with
      | nil => rfl
      | cons o sched =>
        simp only [List.length_cons] at hf
        rw [readExactT, run_act]
        simp only [exec]
        rw [readExact]
        rcases lowRead o bytes (need + 1) with ⟨r, bytes'⟩
        cases r with
        | data bs => exact ih _ _ ⟨sk, ⟨bytes', sched⟩⟩ (by simpa using hf)
        | retry => exact ih _ _ ⟨sk, ⟨bytes', sched⟩⟩ (by simpa using hf)
        | zero => rfl
        | broken => rfl

theorem does_readExact (env : Env) (N n : Nat) : Does env N (readExactT N n []) (connReadExact n) := by
  intro st hN
  rw [run_readExactT env n N [] st hN.1]
  unfold connReadExact
  rcases readExact st.inp.sched st.inp.bytes n [] with ⟨r, inp'⟩
  cases r <;> rfl

theorem does_readLength (env : Env) (N : Nat) (m : UInt8) : Does env N (readLengthT env N m) (readLength env m) := by
  unfold readLengthT readLength
  refine .ite (fun _ => .ret _) (fun _ => .ite (fun _ => ?_) (fun _ => ?_))
  · refine (does_readExact env N 2).andThen (g := fun bs => match bs with
      | [b0, b1] => P.pure ((hton16 env.host (load16 env.host b0 b1)).toNat : Int)
      | _ => P.fail .len2Read) fun bs => ?_
    split
    · exact .ret _
    · rename_i hne
      split
      · exact absurd rfl (by apply hne)
      · exact .throw _
  · refine (does_readExact env N 8).andThen (g := fun bs => match bs with
      | [b0, b1, b2, b3, b4, b5, b6, b7] => P.pure (toInt64 ((hton32 env.host (load32 env.host b0 b1 b2 b3)).toNat * 4294967296
          + (hton32 env.host (load32 env.host b4 b5 b6 b7)).toNat))
      | _ => P.fail .len3Read) fun bs => ?_
    split
    · exact .ret _
    · rename_i hne
      split
      · exact absurd rfl (by apply hne)
      · exact .throw _

theorem does_readFrameHeader (env : Env) (N : Nat) (h : Header) : Does env N (readFrameHeaderT env N h) (readFrameHeader env h) := by
  refine (does_readExact env N 2).andThen (g := fun bs => match bs with
    | [b0, b1] => P.bind (readLength env (unpackHeaderBits (hton16 env.host (load16 env.host b0 b1)) h).2) (fun len =>
        if (unpackHeaderBits (hton16 env.host (load16 env.host b0 b1)) h).1.hasMask then P.bind (connReadExact 4) (fun m => match m with
          | [m0, m1, m2, m3] => P.pure { (unpackHeaderBits (hton16 env.host (load16 env.host b0 b1)) h).1 with payloadLength := len, mask := ⟨m0, m1, m2, m3⟩ }
          | _ => P.fail .maskRead)
        else P.pure { (unpackHeaderBits (hton16 env.host (load16 env.host b0 b1)) h).1 with payloadLength := len })
    | _ => P.fail .headerRead) fun bs => ?_
  split
  · refine (does_readLength env N _).andThen fun len => .ite (fun _ => ?_) (fun _ => .ret _)
    refine (does_readExact env N 4).andThen fun ms => ?_
    split
    · exact .ret _
    · rename_i hne
      split
      · exact absurd rfl (by apply hne)
      · exact .throw _
  · rename_i hne
    split
    · exact absurd rfl (by apply hne)
    · exact .throw _

theorem run_readPayloadLoopT (env : Env) (N : Nat) (h : Header) (short : Bool) (cap n : Nat) (progress : Int) (acc : List UInt8) (st : St)
    (hn : st.inp.sched.length ≤ n) (hN : Enough N st) :
    run env (readPayloadLoopT env N h short cap n progress acc) st =
      readPayloadLoop env h short cap st.inp.sched st.inp.bytes st.sock progress acc := by
  induction n generalizing progress acc st with
  | zero =>
    rcases st with ⟨sk, ⟨bytes, sched⟩⟩
    have hs : sched = [] := List.length_eq_zero_iff.mp (by simpa using hn)
    rw [readPayloadLoopT]
    subst hs
    show _ = readPayloadLoop env h short cap [] bytes sk progress acc
    unfold readPayloadLoop
    by_cases hp : progress < h.payloadLength
    · rw [if_pos hp, if_pos hp]; rfl
    · rw [if_neg hp, if_neg hp]; rfl
  | succ n ih =>
    rcases st with ⟨sk, ⟨bytes, sched⟩⟩
    rw [readPayloadLoopT]
    show _ = readPayloadLoop env h short cap sched bytes sk progress acc
    unfold readPayloadLoop
    by_cases hp : progress < h.payloadLength
    · rw [if_pos hp, if_pos hp, run_getConfig]
      dsimp only
      generalize (if sk.config.readBufferSize > h.payloadLength - progress then h.payloadLength - progress else sk.config.readBufferSize) = want
      cases sched with
      | nil =>
        simp only
        by_cases hw : want < 0
        · rw [if_pos hw]; rfl
        · rw [if_neg hw]; rfl
      | cons o sched =>
        simp only [List.length_cons] at hn
        have hN' : ∀ b, Enough N ⟨sk, ⟨b, sched⟩⟩ := fun b => ⟨Nat.le_trans (Nat.le_succ _) hN.1, hN.2⟩
        simp only
        by_cases hw : want < 0
        · rw [if_pos hw, if_pos hw]
          show ((.ub .negativeRead, _) : Exit (List UInt8) × St) = _
          cases o <;> simp [lowRead]
        · rw [if_neg hw, if_neg hw, run_act]
          simp only [exec]
          rcases lowRead o bytes want.toNat with ⟨r, bytes'⟩
          cases r with
          | data bs =>
            simp only [Option.elim_some]
            by_cases hc : bs.length > cap
            · rw [if_pos hc, if_pos hc]; rfl
            · rw [if_neg hc, if_neg hc]
              cases short with
              | true =>
                simp only [if_true]
                exact ih _ _ ⟨sk, ⟨bytes', sched⟩⟩ (by simpa using hn) (hN' _)
              | false =>
                simp only [Bool.false_eq_true, if_false]
                have hd := does_callListener env N (fun l => .readMessage l h.opcode (if h.hasMask = true then xorMask h.mask progress.toNat bs else bs)) ⟨sk, ⟨bytes', sched⟩⟩ (hN' _)
                have hs := run_sched env (callListenerT env N (fun l => .readMessage l h.opcode (if h.hasMask = true then xorMask h.mask progress.toNat bs else bs))) ⟨sk, ⟨bytes', sched⟩⟩
                rw [run_andThen, P.bind_apply]
                rw [hd] at hs ⊢
                unfold liftSock at hs ⊢
                simp only at hs ⊢
                revert hs
                rcases callListener env _ sk with ⟨x, s'⟩
                intro hs
                cases x with
                | ret a => exact ih _ _ ⟨s', ⟨bytes', sched⟩⟩ (by simpa using hn) ⟨(hN' []).1, Nat.le_trans hs.2 hN.2⟩
                | throw e => rfl
                | block => rfl
                | ub u => rfl
          | retry => exact ih _ _ ⟨sk, ⟨bytes', sched⟩⟩ (by simpa using hn) (hN' _)
          | zero => rfl
          | broken => rfl
    · rw [if_neg hp, if_neg hp]; rfl

theorem does_endMarker (env : Env) (N : Nat) (h : Header) (short : Bool) : Does env N (endMarkerT env N h short) (endMarker env h short) := by
  unfold endMarkerT endMarker
  exact .ite (fun _ => does_callListener env N _) (fun _ => .ret ())

theorem does_readPayload (env : Env) (N : Nat) (h : Header) (short : Bool) : Does env N (readPayloadT env N h short) (readPayload env h short) := by
  unfold readPayloadT readPayload
  refine .ite (fun _ => .throw _) (fun _ => ?_)
  intro st hN
  rw [run_getConfig]
  show _ = (if st.sock.config.readBufferSize < 0 then P.fail .badAlloc else P.bind (runPayloadLoop env h short) fun acc => P.bind (endMarker env h short) fun _ => P.pure acc) st
  by_cases hb : st.sock.config.readBufferSize < 0
  · rw [if_pos hb, if_pos hb]; rfl
  · rw [if_neg hb, if_neg hb, run_andThen, P.bind_apply, P.bind_apply]
    have hs := run_sched env (readPayloadLoopT env N h short st.sock.config.readBufferSize.toNat N 0 []) st
    rw [run_readPayloadLoopT env N h short _ N 0 [] st hN.1 hN] at hs ⊢
    unfold runPayloadLoop
    revert hs
    rcases readPayloadLoop env h short st.sock.config.readBufferSize.toNat st.inp.sched st.inp.bytes st.sock 0 [] with ⟨x, st'⟩
    intro hs
    cases x with
    | ret acc => exact (does_endMarker env N h short).andThen (fun _ => .ret acc) st' ⟨Nat.le_trans hs.1 hN.1, Nat.le_trans hs.2 hN.2⟩
    | throw e => rfl
    | block => rfl
    | ub u => rfl

theorem does_checkForContinuation (env : Env) (N : Nat) (h : Header) : Does env N (checkForContinuationT h) (liftSock (checkForContinuation h)) := by
  intro st hN
  unfold checkForContinuationT liftSock checkForContinuation
  rw [run_getLast]
  by_cases h1 : st.sock.lastOpcode = OPCODE_TEXT.toNat ∨ st.sock.lastOpcode = OPCODE_BINARY.toNat
  · rw [if_pos h1, if_pos h1]; rfl
  · rw [if_neg h1, if_neg h1]
    by_cases h2 : h.fin = true
    · rw [if_pos h2, if_pos h2]; rfl
    · rw [if_neg h2, if_neg h2]; rfl

theorem does_handleFrame (env : Env) (N : Nat) (h : Header) : Does env N (handleFrameT env N h) (handleFrame env h) := by
  have pay : Does env N (Prog.andThen (readPayloadT env N h false) fun _ => .ret ()) (P.bind (readPayload env h false) fun _ => P.pure ()) :=
    (does_readPayload env N h false).andThen fun _ => .ret ()
  have data : Does env N (Prog.andThen (checkForContinuationT h) fun ok => if ok then Prog.andThen (readPayloadT env N h false) fun _ => .ret () else .throw .continuationExpected)
      (P.bind (liftSock (checkForContinuation h)) fun ok => if ok then P.bind (readPayload env h false) fun _ => P.pure () else P.fail .continuationExpected) :=
    (does_checkForContinuation env N h).andThen fun ok => .ite (fun _ => pay) (fun _ => .throw _)
  unfold handleFrameT handleFrame
  refine .ite (fun _ => ?_) (fun _ => .ite (fun _ => data) (fun _ => .ite (fun _ => data) (fun _ => .ite (fun _ => ?_) (fun _ => .ite (fun _ => ?_) (fun _ => .ite (fun _ => ?_) (fun _ => .throw _))))))
  · intro st hN
    rw [run_getLast]
    show _ = (if st.sock.lastOpcode < 0 then P.fail .continuationState else P.bind (readPayload env h false) fun _ => P.pure ()) st
    by_cases hb : st.sock.lastOpcode < 0
    · rw [if_pos hb, if_pos hb]; rfl
    · rw [if_neg hb, if_neg hb]; exact pay st hN
  · exact (does_readPayload env N h true).andThen fun data => does_callListener env N _
  · exact (does_readPayload env N h true).andThen fun data => does_callListener env N _
  · exact (does_readPayload env N h true).andThen fun data => does_callListener env N _

theorem does_iterateFrame (env : Env) (N : Nat) (h : Header) : Does env N (iterateFrameT env N h) (iterateFrame env h) :=
  (does_readFrameHeader env N h).andThen fun h => (does_handleFrame env N h).andThen fun _ => .ret h

theorem does_listenLoop (env : Env) (N n : Nat) (h : Header) : Does env N (listenLoopT env N n h) (listenLoop env n h) := by
  induction n generalizing h with
  | zero => exact fun _ _ => rfl
  | succ n ih =>
    intro st hN
    have hs := run_sched env (iterateFrameT env N h) st
    rw [does_iterateFrame env N h st hN] at hs
    rw [listenLoopT, run_andThen, P.bind_apply, does_iterateFrame env N h st hN]
    unfold listenLoop
    rcases hi : iterateFrame env h st with ⟨(h' | e | _ | u), st'⟩ <;> rw [hi] at hs <;> simp only []
    · by_cases hc : h'.opcode ≠ OPCODE_CLOSE
      · rw [if_pos hc, run_getListening]
        cases hl : st'.sock.listening with
        | true => rw [if_pos rfl, if_pos ⟨hc, rfl⟩]; exact ih h' st' ⟨Nat.le_trans hs.1 hN.1, Nat.le_trans hs.2 hN.2⟩
        | false => rw [if_neg (by decide), if_neg (fun h => Bool.noConfusion h.2)]; rfl
      · rw [if_neg hc, if_neg (fun h => hc h.1)]; rfl

/-- A thread alone that calls `listen`. -/
theorem does_listen (env : Env) (N : Nat) (h : Header) : ∀ st, st.inp.sched.length < N → st.sock.out.sched.length ≤ N →
    run env (listenT env N h) st = listen env h st := by
  intro st h1 h2
  have e : run env (.act (.setListening true) fun _ => listenLoopT env N N h) st = listenBody env h st :=
    (does_listenLoop env N N h { st with sock := { st.sock with listening := true } } ⟨Nat.le_of_lt h1, h2⟩).trans
      (listenLoop_fuel env h N (st.inp.sched.length + 1) { st with sock := { st.sock with listening := true } } h1 (Nat.lt_succ_self _))
  unfold listenT listen
  rw [run_catching, e]
  rcases listenBody env h st with ⟨(_ | _ | _ | _), _⟩ <;> rfl

end OatWS.Threads
