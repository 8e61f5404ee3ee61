import Verif.Spec.Reentrant
import Verif.Proofs.Reentrant
import Verif.Proofs.GatewayDefined
/-! Reads nested in callbacks of one socket: nothing but its connection holds the thread up, and nothing undefined happens. -/

namespace OatWS

theorem runUserOps_waits (env : Env) (ops : List UserOp) : OutWaits (runUserOps env ops) := by
  induction ops with
  | nil => exact .pure _
  | cons u ops ih => exact (runUserOp_waits env u).bind fun _ => ih

theorem callListener_waits (env : Env) (mk : Nat → Event) : OutWaits (callListener env mk) := by
  intro s
  unfold callListener
  split
  · exact nofun
  · exact runUserOps_waits env _ _

end OatWS

namespace OatWS.Reentrant
open RFC6455

variable {call : Callback} {n d : Nat}

/-! ## Waiting -/

/-- With at most `d` reads left: when `m` waits, the connection will not do any more reads or writes; and reads are used up, at least `n` if it does not wait. -/
def Live (d n : Nat) {α : Type} (m : P St α) : Prop := ∀ st, st.inp.sched.length ≤ d → ((m st).1 = .block → (m st).2.inp.sched = [] ∨ (m st).2.sock.out.sched = []) ∧ (m st).2.inp.sched.length ≤ st.inp.sched.length ∧
  ((m st).1 ≠ .block → (m st).2.inp.sched.length + n ≤ st.inp.sched.length)

theorem Live.pure {α : Type} (a : α) : Live d 0 (Pure.pure a : P St α) := fun _ _ => ⟨nofun, Nat.le_refl _, fun _ => Nat.le_refl _⟩
theorem Live.fail {α : Type} (e : Err) : Live d 0 (P.fail e : P St α) := fun _ _ => ⟨nofun, Nat.le_refl _, fun _ => Nat.le_refl _⟩
theorem Live.of {α : Type} {m : P St α} (h : InWaits 0 m) : Live d 0 m := fun st _ => ⟨(h st).1, (h st).2.1, fun _ => (h st).2.1⟩

theorem Live.bind {α β : Type} {m : P St α} {f : α → P St β} (h : Live d 0 m) (h' : ∀ a, Live d 0 (f a)) : Live d 0 (m >>= f) := by
  intro st hst
  obtain ⟨h1, h2, -⟩ := h st hst
  rw [bind_eq]
  rcases hm : m st with ⟨r, st'⟩
  rw [hm] at h1 h2
  cases r with
  | ret a =>
    obtain ⟨g1, g2, -⟩ := h' a st' (Nat.le_trans h2 hst)
    exact ⟨g1, Nat.le_trans g2 h2, fun _ => Nat.le_trans g2 h2⟩
  | throw e => exact ⟨nofun, h2, fun _ => h2⟩
  | block => exact ⟨fun _ => h1 rfl, h2, fun _ => h2⟩
  | ub u => exact ⟨nofun, h2, fun _ => h2⟩

theorem payloadLoop_live (hc : ∀ mk, Live d 0 (call mk)) (h : Header) (short : Bool) (cap fuel : Nat) (st : St) (progress : Int) (acc : List UInt8) (hf : st.inp.sched.length ≤ fuel) (hst : st.inp.sched.length ≤ d) :
    ((payloadLoopWith call h short cap fuel st progress acc).1 = .block → (payloadLoopWith call h short cap fuel st progress acc).2.inp.sched = [] ∨ (payloadLoopWith call h short cap fuel st progress acc).2.sock.out.sched = []) ∧
      (payloadLoopWith call h short cap fuel st progress acc).2.inp.sched.length ≤ st.inp.sched.length := by
  induction fuel generalizing st progress acc with
  | zero =>
    rw [payloadLoopWith]
    have := List.length_eq_zero_iff.mp (Nat.le_zero.mp hf)
    split
    · exact ⟨fun _ => .inl this, Nat.le_refl _⟩
    · exact ⟨nofun, Nat.le_refl _⟩
  | succ fuel ih =>
    rw [payloadLoopWith]
    split
    · cases hsch : st.inp.sched with
      | nil => exact ⟨fun _ => .inl hsch, by rw [hsch]; exact Nat.le_refl _⟩
      | cons o sched =>
        dsimp only
        generalize (if st.sock.config.readBufferSize > h.payloadLength - progress then h.payloadLength - progress else st.sock.config.readBufferSize) = n
        rw [hsch] at hf hst
        rw [List.length_cons] at hf hst ⊢
        have next : ∀ b p a, ((payloadLoopWith call h short cap fuel ⟨st.sock, ⟨b, sched⟩⟩ p a).1 = .block → (payloadLoopWith call h short cap fuel ⟨st.sock, ⟨b, sched⟩⟩ p a).2.inp.sched = [] ∨ (payloadLoopWith call h short cap fuel ⟨st.sock, ⟨b, sched⟩⟩ p a).2.sock.out.sched = []) ∧
            (payloadLoopWith call h short cap fuel ⟨st.sock, ⟨b, sched⟩⟩ p a).2.inp.sched.length ≤ sched.length + 1 := fun b p a => by
          obtain ⟨g1, g2⟩ := ih ⟨st.sock, ⟨b, sched⟩⟩ p a (Nat.le_of_succ_le_succ hf) (Nat.le_of_succ_le hst)
          exact ⟨g1, Nat.le_succ_of_le g2⟩
        split
        · exact ⟨nofun, Nat.le_succ _⟩
        · rcases he : lowRead o st.inp.bytes n.toNat with ⟨r, bytes'⟩
          cases r with
          | data bs =>
            dsimp only
            split
            · exact ⟨nofun, Nat.le_succ _⟩
            · cases short with
              | true => exact next _ _ _
              | false =>
                simp only [Bool.false_eq_true, if_false]
                generalize (if h.hasMask then xorMask h.mask progress.toNat bs else bs) = chunk
                obtain ⟨h1, h2, -⟩ := hc (fun l => .readMessage l h.opcode chunk) ⟨st.sock, ⟨bytes', sched⟩⟩ (Nat.le_of_succ_le hst)
                rcases hr : call (fun l => .readMessage l h.opcode chunk) ⟨st.sock, ⟨bytes', sched⟩⟩ with ⟨r, st'⟩
                rw [hr] at h1 h2
                have h3 : st'.inp.sched.length ≤ sched.length + 1 := Nat.le_succ_of_le h2
                cases r with
                | ret a =>
                  obtain ⟨g1, g2⟩ := ih st' (progress + bs.length) acc (Nat.le_trans h2 (Nat.le_of_succ_le_succ hf)) (Nat.le_trans h3 hst)
                  exact ⟨g1, Nat.le_trans g2 h3⟩
                | throw e => exact ⟨nofun, h3⟩
                | block => exact ⟨fun _ => h1 rfl, h3⟩
                | ub u => exact ⟨nofun, h3⟩
          | retry => exact next _ _ _
          | zero => exact ⟨nofun, Nat.le_succ _⟩
          | broken => exact ⟨nofun, Nat.le_succ _⟩
    · exact ⟨nofun, Nat.le_refl _⟩

theorem readPayload_live (hc : ∀ mk, Live d 0 (call mk)) (h : Header) (short : Bool) : Live d 0 (readPayloadWith call h short) := by
  unfold readPayloadWith
  split
  · exact .fail _
  · refine .bind (.of Gateway.get_waits) fun st => ?_
    split
    · exact .fail _
    · refine .bind ?_ fun acc => .bind ?_ fun _ => .pure _
      · intro st hst
        obtain ⟨h1, h2⟩ := payloadLoop_live hc h short st.sock.config.readBufferSize.toNat _ st 0 [] (Nat.le_refl _) hst
        exact ⟨h1, h2, fun _ => h2⟩
      · unfold endMarkerWith
        split
        · exact hc _
        · exact .pure _

theorem handleFrame_live (hc : ∀ mk, Live d 0 (call mk)) (env : Env) (h : Header) : Live d 0 (handleFrameWith env call h) := by
  have data : Live d 0 (do let _ ← readPayloadWith call h false : P St Unit) := .bind (readPayload_live hc h false) fun _ => .pure _
  have start : Live d 0 (do if ← liftSock (checkForContinuation h) then (do let _ ← readPayloadWith call h false) else P.fail .continuationExpected : P St Unit) := by
    refine .bind (.of (liftSock_waits (Gateway.checkFor_waits h))) fun b => ?_
    split
    · exact data
    · exact .fail _
  unfold handleFrameWith
  split
  · refine .bind (.of Gateway.get_waits) fun st => ?_
    split
    · exact .fail _
    · exact data
  split
  · exact start
  split
  · exact start
  split
  · exact .bind (readPayload_live hc h true) fun _ => hc _
  split
  · exact .bind (readPayload_live hc h true) fun _ => hc _
  split
  · exact .bind (readPayload_live hc h true) fun _ => hc _
  · exact .fail _

theorem iterate_live (hc : ∀ mk, Live d 0 (call mk)) (env : Env) (h : Header) : Live (d + 1) 1 (iterateWith env call h) := by
  intro st hst
  obtain ⟨h1, h2, -⟩ := readFrameHeader_waits env h st
  have h3 := readFrameHeader_uses env h st
  unfold iterateWith
  rw [bind_eq]
  rcases hr : readFrameHeader env h st with ⟨r, st'⟩
  rw [hr] at h1 h2 h3
  cases r with
  | ret h' =>
    have hl := h3 nofun
    obtain ⟨g1, g2, g3⟩ := Live.bind (handleFrame_live hc env h') (fun _ => Live.pure h') st' (by dsimp only at hl; omega)
    exact ⟨g1, Nat.le_trans g2 h2, fun _ => Nat.le_trans (Nat.succ_le_succ g2) hl⟩
  | throw e => exact ⟨nofun, h2, fun _ => h3 nofun⟩
  | block => exact ⟨fun _ => h1 rfl, h2, fun hb => absurd rfl hb⟩
  | ub u => exact ⟨nofun, h2, fun _ => h3 nofun⟩

theorem listenLoop_live (hc : ∀ mk, Live d 0 (call mk)) (env : Env) (fuel : Nat) (h : Header) (st : St) (hf : st.inp.sched.length < fuel) (hst : st.inp.sched.length ≤ d + 1) :
    ((listenLoopWith env call fuel h st).1 = .block → (listenLoopWith env call fuel h st).2.inp.sched = [] ∨ (listenLoopWith env call fuel h st).2.sock.out.sched = []) ∧ (listenLoopWith env call fuel h st).2.inp.sched.length ≤ st.inp.sched.length ∧
      ((listenLoopWith env call fuel h st).1 ≠ .block → (listenLoopWith env call fuel h st).2.inp.sched.length + 1 ≤ st.inp.sched.length) := by
  induction fuel generalizing h st with
  | zero => exact absurd hf (Nat.not_lt_zero _)
  | succ fuel ih =>
    obtain ⟨h1, h2, h3⟩ := iterate_live hc env h st hst
    unfold listenLoopWith
    rcases hr : iterateWith env call h st with ⟨r, st'⟩
    rw [hr] at h1 h2 h3
    cases r with
    | ret h' =>
      dsimp only
      have hl := h3 nofun
      split
      · obtain ⟨g1, g2, -⟩ := ih h' st' (by dsimp only at hl; omega) (Nat.le_trans h2 hst)
        exact ⟨g1, Nat.le_trans g2 h2, fun _ => Nat.le_trans (Nat.succ_le_succ g2) hl⟩
      · exact ⟨nofun, h2, fun _ => hl⟩
    | throw e => exact ⟨nofun, h2, fun _ => h3 nofun⟩
    | block => exact ⟨fun _ => h1 rfl, h2, fun hb => absurd rfl hb⟩
    | ub u => exact ⟨nofun, h2, fun _ => h3 nofun⟩

theorem listen_live (hc : ∀ mk, Live d 0 (call mk)) (env : Env) (h : Header) : Live (d + 1) 1 (listenWith env call h) := by
  intro st hst
  obtain ⟨h1, h2, h3⟩ := listenLoop_live hc env (st.inp.sched.length + 1) h { st with sock := { st.sock with listening := true } } (Nat.lt_succ_self _) hst
  unfold listenWith
  dsimp only
  rcases hr : listenLoopWith env call (st.inp.sched.length + 1) h { st with sock := { st.sock with listening := true } } with ⟨r, st'⟩
  rw [hr] at h1 h2 h3
  cases r with
  | ret _ => exact ⟨nofun, h2, fun _ => h3 nofun⟩
  | throw e => exact ⟨nofun, h2, fun _ => h3 nofun⟩
  | block => exact ⟨fun _ => h1 rfl, h2, fun hb => absurd rfl hb⟩
  | ub u => exact ⟨nofun, h2, fun _ => h3 nofun⟩

/-- The number of reads that an operation uses up at least. -/
def least : NestedOp → Nat
  | .op _ => 0
  | _ => 1

theorem nested_live (hc : ∀ mk, Live d 0 (call mk)) (env : Env) (op : NestedOp) : Live (d + 1) (least op) (nestedWith env call op) := by
  cases op with
  | op u => exact .of (liftSock_waits (runUserOp_waits env u))
  | iterate catches =>
    intro st hst
    obtain ⟨h1, h2, h3⟩ := iterate_live hc env default st hst
    unfold nestedWith
    dsimp only
    rcases hr : iterateWith env call default st with ⟨r, st'⟩
    rw [hr] at h1 h2 h3
    cases r with
    | ret h' => exact ⟨nofun, h2, fun _ => h3 nofun⟩
    | throw e => cases catches <;> exact ⟨nofun, h2, fun _ => h3 nofun⟩
    | block => exact ⟨fun _ => h1 rfl, h2, fun hb => absurd rfl hb⟩
    | ub u => exact ⟨nofun, h2, fun _ => h3 nofun⟩
  | listen => exact listen_live hc env default

theorem more_live (c : Code) {n : Nat} (hb : c.Brief n) (hc : ∀ mk, Live d 0 (call mk)) (tr : List Event) (steps i : Nat) (st : St) (hst : st.inp.sched.length ≤ d + 1) (hs : n - i + st.inp.sched.length ≤ steps) :
    ((moreWith c call tr steps i st).1 = .block → (moreWith c call tr steps i st).2.inp.sched = [] ∨ (moreWith c call tr steps i st).2.sock.out.sched = []) ∧ (moreWith c call tr steps i st).2.inp.sched.length ≤ st.inp.sched.length := by
  induction steps generalizing i st with
  | zero =>
    have := List.length_eq_zero_iff.mp (show st.inp.sched.length = 0 by omega)
    unfold moreWith
    split
    · exact ⟨nofun, Nat.le_refl _⟩
    · exact ⟨fun _ => .inl this, Nat.le_refl _⟩
  | succ steps ih =>
    unfold moreWith
    cases hn : c.next tr i st.sock.trace with
    | none => exact ⟨nofun, Nat.le_refl _⟩
    | some op =>
      dsimp only
      have hi : n ≤ i → least op = 1 := fun hi => by
        cases op with
        | op u => exact absurd hn (hb tr i st.sock.trace u hi)
        | _ => rfl
      obtain ⟨h1, h2, h3⟩ := nested_live hc c.env op st hst
      rcases hr : nestedWith c.env call op st with ⟨r, st'⟩
      rw [hr] at h1 h2 h3
      cases r with
      | ret _ =>
        have hl := h3 nofun
        dsimp only at hl h2
        obtain ⟨g1, g2⟩ := ih (i + 1) st' (Nat.le_trans h2 hst) (by
          by_cases hni : n ≤ i
          · have := hi hni
            omega
          · omega)
        exact ⟨g1, Nat.le_trans g2 h2⟩
      | throw e => exact ⟨nofun, h2⟩
      | block => exact ⟨fun _ => h1 rfl, h2⟩
      | ub u => exact ⟨nofun, h2⟩

theorem callback_live (c : Code) {n : Nat} (hb : c.Brief n) (steps depth : Nat) : ∀ d, d ≤ depth → n + d ≤ steps → ∀ mk, Live d 0 (callback c steps depth mk) := by
  induction depth with
  | zero =>
    intro d hd _ mk st hst
    unfold callback
    split
    · exact Live.pure () st hst
    · rename_i l _
      obtain ⟨h1, h2, h3⟩ := liftSock_waits (callListener_waits c.env mk) st
      rcases hr : liftSock (callListener c.env mk) st with ⟨r, st'⟩
      rw [hr] at h1 h2 h3
      cases r with
      | ret _ =>
        have e : moreWith c (fun _ st => (.block, st)) (st.sock.trace ++ [mk l]) 0 0 st' = if (c.next (st.sock.trace ++ [mk l]) 0 st'.sock.trace).isNone then (.ret (), st') else (.block, st') := rfl
        dsimp only
        rw [e]
        split
        · exact ⟨nofun, h2, fun _ => h2⟩
        · exact ⟨fun _ => .inl (List.length_eq_zero_iff.mp (Nat.le_zero.mp (Nat.le_trans (Nat.le_trans h2 hst) hd))), h2, fun _ => h2⟩
      | throw e => exact ⟨nofun, h2, fun _ => h2⟩
      | block => exact ⟨fun _ => h1 rfl, h2, fun _ => h2⟩
      | ub u => exact ⟨nofun, h2, fun _ => h2⟩
  | succ depth ih =>
    intro d hd hs mk st hst
    unfold callback
    split
    · exact Live.pure () st hst
    · rename_i l _
      obtain ⟨h1, h2, h3⟩ := liftSock_waits (callListener_waits c.env mk) st
      rcases hr : liftSock (callListener c.env mk) st with ⟨r, st'⟩
      rw [hr] at h1 h2 h3
      cases r with
      | ret _ =>
        have hl : st'.inp.sched.length ≤ d := Nat.le_trans h2 hst
        obtain ⟨g1, g2⟩ := more_live c hb (d := d - 1) (ih (d - 1) (by omega) (by omega)) (st.sock.trace ++ [mk l]) steps 0 st' (by omega) (by omega)
        exact ⟨g1, Nat.le_trans g2 h2, fun _ => Nat.le_trans g2 h2⟩
      | throw e => exact ⟨nofun, h2, fun _ => h2⟩
      | block => exact ⟨fun _ => h1 rfl, h2, fun _ => h2⟩
      | ub u => exact ⟨nofun, h2, fun _ => h2⟩

/-! ## Nothing undefined -/

/-- `m` has no undefined behaviour when the configuration is `conf`, and keeps it. -/
def Defined (conf : Config) {α : Type} (m : P St α) : Prop := ∀ st, st.sock.config = conf → (∀ u, (m st).1 ≠ .ub u) ∧ (m st).2.sock.config = conf

variable {conf : Config}

theorem Defined.pure {α : Type} (a : α) : Defined conf (Pure.pure a : P St α) := fun _ h => ⟨nofun, h⟩
theorem Defined.fail {α : Type} (e : Err) : Defined conf (P.fail e : P St α) := fun _ h => ⟨nofun, h⟩
theorem Defined.of {α : Type} {m : P St α} (h : NoUb m) (h' : ∀ s, (m s).2.sock.config = s.sock.config) : Defined conf m := fun st hst => ⟨h st, (h' st).trans hst⟩

theorem Defined.bind {α β : Type} {m : P St α} {f : α → P St β} (h : Defined conf m) (h' : ∀ a, Defined conf (f a)) : Defined conf (m >>= f) := by
  intro st hst
  obtain ⟨h1, h2⟩ := h st hst
  rw [bind_eq]
  rcases hm : m st with ⟨r, st'⟩
  rw [hm] at h1 h2
  cases r with
  | ret a => exact h' a st' h2
  | throw e => exact ⟨nofun, h2⟩
  | block => exact ⟨nofun, h2⟩
  | ub u => exact absurd rfl (h1 u)

theorem runUserOps_defined (env : Env) (ops : List UserOp) (h : ∀ u ∈ ops, Modest u) : Defined conf (liftSock (runUserOps env ops)) := by
  induction ops with
  | nil => exact fun st hst => ⟨nofun, hst⟩
  | cons u ops ih =>
    intro st hst
    have h1 := runUserOp_noUb env u (h u List.mem_cons_self).1 st.sock
    have h2 := runUserOp_config env u (h u List.mem_cons_self).2 st.sock
    have e : runUserOps env (u :: ops) st.sock = (runUserOp env u >>= fun _ => runUserOps env ops) st.sock := rfl
    unfold liftSock
    rw [e, bind_eq]
    rcases hr : runUserOp env u st.sock with ⟨r, s'⟩
    rw [hr] at h1 h2
    cases r with
    | ret _ => exact ih (fun u hu => h u (List.mem_cons_of_mem _ hu)) ⟨s', st.inp⟩ (h2.trans hst)
    | throw e => exact ⟨nofun, h2.trans hst⟩
    | block => exact ⟨nofun, h2.trans hst⟩
    | ub u => exact absurd rfl (h1 u)

theorem callListener_defined (env : Env) (hm : ∀ tr, ∀ u ∈ env.react tr, Modest u) (mk : Nat → Event) : Defined conf (liftSock (callListener env mk)) := by
  intro st hst
  cases hl : st.sock.listener with
  | none =>
    have e : callListener env mk st.sock = (.ret (), st.sock) := by
      unfold callListener
      split
      · rfl
      · rename_i h
        cases hl.symm.trans h
    unfold liftSock
    rw [e]
    exact ⟨nofun, hst⟩
  | some l =>
    have e : callListener env mk st.sock = runUserOps env (env.react (st.sock.trace ++ [mk l])) { st.sock with trace := st.sock.trace ++ [mk l] } := by
      unfold callListener
      split
      · rename_i h
        cases hl.symm.trans h
      · rename_i l' h
        cases hl.symm.trans h
        rfl
    unfold liftSock
    rw [e]
    exact runUserOps_defined env _ (hm _) ⟨{ st.sock with trace := st.sock.trace ++ [mk l] }, st.inp⟩ hst

theorem payloadLoop_defined (hc : ∀ mk, Defined conf (call mk)) (h : Header) (short : Bool) (cap fuel : Nat) (hcap : cap = conf.readBufferSize.toNat) (hpos : 0 ≤ conf.readBufferSize) (st : St) (hst : st.sock.config = conf) (progress : Int) (acc : List UInt8) :
    (∀ u, (payloadLoopWith call h short cap fuel st progress acc).1 ≠ .ub u) ∧ (payloadLoopWith call h short cap fuel st progress acc).2.sock.config = conf := by
  induction fuel generalizing st progress acc with
  | zero =>
    rw [payloadLoopWith]
    split <;> exact ⟨nofun, hst⟩
  | succ fuel ih =>
    rw [payloadLoopWith]
    split
    · rename_i hp
      cases hsch : st.inp.sched with
      | nil => exact ⟨nofun, hst⟩
      | cons o sched =>
        dsimp only
        have hn : 0 ≤ (if st.sock.config.readBufferSize > h.payloadLength - progress then h.payloadLength - progress else st.sock.config.readBufferSize) ∧
            (if st.sock.config.readBufferSize > h.payloadLength - progress then h.payloadLength - progress else st.sock.config.readBufferSize).toNat ≤ cap := by
          rw [hst, hcap]
          split <;> omega
        generalize (if st.sock.config.readBufferSize > h.payloadLength - progress then h.payloadLength - progress else st.sock.config.readBufferSize) = n at hn
        split
        · omega
        · rcases he : lowRead o st.inp.bytes n.toNat with ⟨r, bytes'⟩
          cases r with
          | data bs =>
            have hb := Nat.le_trans (by obtain ⟨_, _, _, _, _, h, _⟩ := lowRead_data he; exact h) hn.2
            dsimp only
            split
            · omega
            · cases short with
              | true => exact ih ⟨st.sock, ⟨bytes', sched⟩⟩ hst _ _
              | false =>
                simp only [Bool.false_eq_true, if_false]
                generalize (if h.hasMask then xorMask h.mask progress.toNat bs else bs) = chunk
                obtain ⟨h1, h2⟩ := hc (fun l => .readMessage l h.opcode chunk) ⟨st.sock, ⟨bytes', sched⟩⟩ hst
                rcases hr : call (fun l => .readMessage l h.opcode chunk) ⟨st.sock, ⟨bytes', sched⟩⟩ with ⟨r, st'⟩
                rw [hr] at h1 h2
                cases r with
                | ret a => exact ih st' h2 _ _
                | throw e => exact ⟨nofun, h2⟩
                | block => exact ⟨nofun, h2⟩
                | ub u => exact absurd rfl (h1 u)
          | retry => exact ih ⟨st.sock, ⟨bytes', sched⟩⟩ hst _ _
          | zero => exact ⟨nofun, hst⟩
          | broken => exact ⟨nofun, hst⟩
    · exact ⟨nofun, hst⟩

theorem readPayload_defined (hc : ∀ mk, Defined conf (call mk)) (h : Header) (short : Bool) : Defined conf (readPayloadWith call h short) := by
  unfold readPayloadWith
  split
  · exact .fail _
  · intro st hst
    rw [bind_eq]
    dsimp only [P.get]
    by_cases hn : st.sock.config.readBufferSize < 0
    · rw [if_pos hn]
      exact ⟨nofun, hst⟩
    · rw [if_neg hn]
      have hpos : 0 ≤ conf.readBufferSize := by rw [← hst]; omega
      refine Defined.bind (conf := conf) ?_ (fun acc => .bind ?_ fun _ => .pure _) _ hst
      · intro st' hst'
        exact payloadLoop_defined hc h short _ _ (by rw [hst']) hpos st' hst' 0 []
      · unfold endMarkerWith
        split
        · exact hc _
        · exact .pure _

theorem get_defined : Defined conf (P.get : P St St) := fun _ h => ⟨nofun, h⟩

theorem handleFrame_defined (hc : ∀ mk, Defined conf (call mk)) (env : Env) (h : Header) : Defined conf (handleFrameWith env call h) := by
  have data : Defined conf (do let _ ← readPayloadWith call h false : P St Unit) := .bind (readPayload_defined hc h false) fun _ => .pure _
  have start : Defined conf (do if ← liftSock (checkForContinuation h) then (do let _ ← readPayloadWith call h false) else P.fail .continuationExpected : P St Unit) := by
    refine .bind (.of ?_ fun s => (Gateway.checkFor_same h s).config) fun b => ?_
    · intro s u
      unfold liftSock checkForContinuation
      by_cases h1 : s.sock.lastOpcode = OPCODE_TEXT.toNat ∨ s.sock.lastOpcode = OPCODE_BINARY.toNat
      · rw [if_pos h1]; exact nofun
      · rw [if_neg h1]
        by_cases h2 : h.fin = true
        · rw [if_pos h2]; exact nofun
        · rw [if_neg h2]; exact nofun
    · split
      · exact data
      · exact .fail _
  unfold handleFrameWith
  split
  · refine .bind get_defined fun st => ?_
    split
    · exact .fail _
    · exact data
  split
  · exact start
  split
  · exact start
  split
  · exact .bind (readPayload_defined hc h true) fun _ => hc _
  split
  · exact .bind (readPayload_defined hc h true) fun _ => hc _
  split
  · exact .bind (readPayload_defined hc h true) fun _ => hc _
  · exact .fail _

theorem iterate_defined (hc : ∀ mk, Defined conf (call mk)) (env : Env) (h : Header) : Defined conf (iterateWith env call h) := by
  unfold iterateWith
  exact .bind (.of (readFrameHeader_noUb env h) fun s => by rw [readFrameHeader_sock env h s]) fun h' => .bind (handleFrame_defined hc env h') fun _ => .pure _

theorem listenLoop_defined (hc : ∀ mk, Defined conf (call mk)) (env : Env) (fuel : Nat) (h : Header) : Defined conf (listenLoopWith env call fuel h) := by
  induction fuel generalizing h with
  | zero => exact fun st hst => ⟨nofun, hst⟩
  | succ fuel ih =>
    intro st hst
    obtain ⟨h1, h2⟩ := iterate_defined hc env h st hst
    unfold listenLoopWith
    rcases hr : iterateWith env call h st with ⟨r, st'⟩
    rw [hr] at h1 h2
    cases r with
    | ret h' =>
      dsimp only
      split
      · exact ih h' st' h2
      · exact ⟨nofun, h2⟩
    | throw e => exact ⟨nofun, h2⟩
    | block => exact ⟨nofun, h2⟩
    | ub u => exact absurd rfl (h1 u)

theorem listen_defined (hc : ∀ mk, Defined conf (call mk)) (env : Env) (h : Header) : Defined conf (listenWith env call h) := by
  intro st hst
  obtain ⟨h1, h2⟩ := listenLoop_defined hc env (st.inp.sched.length + 1) h { st with sock := { st.sock with listening := true } } hst
  unfold listenWith
  dsimp only
  rcases hr : listenLoopWith env call (st.inp.sched.length + 1) h { st with sock := { st.sock with listening := true } } with ⟨r, st'⟩
  rw [hr] at h1 h2
  cases r with
  | ub u => exact absurd rfl (h1 u)
  | _ => exact ⟨nofun, h2⟩

theorem nested_defined (hc : ∀ mk, Defined conf (call mk)) (env : Env) (op : NestedOp) (ho : ∀ u, op = .op u → Modest u) : Defined conf (nestedWith env call op) := by
  cases op with
  | op u => exact .of (fun s => runUserOp_noUb env u (ho u rfl).1 s.sock) fun s => runUserOp_config env u (ho u rfl).2 s.sock
  | iterate catches =>
    intro st hst
    obtain ⟨h1, h2⟩ := iterate_defined hc env default st hst
    unfold nestedWith
    dsimp only
    rcases hr : iterateWith env call default st with ⟨r, st'⟩
    rw [hr] at h1 h2
    cases r with
    | ret h' => exact ⟨nofun, h2⟩
    | throw e => cases catches <;> exact ⟨nofun, h2⟩
    | block => exact ⟨nofun, h2⟩
    | ub u => exact absurd rfl (h1 u)
  | listen => exact listen_defined hc env default

theorem more_defined (c : Code) (hm : c.Modest) (hc : ∀ mk, Defined conf (call mk)) (tr : List Event) (steps i : Nat) : Defined conf (moreWith c call tr steps i) := by
  induction steps generalizing i with
  | zero =>
    intro st hst
    unfold moreWith
    split <;> exact ⟨nofun, hst⟩
  | succ steps ih =>
    intro st hst
    unfold moreWith
    cases hn : c.next tr i st.sock.trace with
    | none => exact ⟨nofun, hst⟩
    | some op =>
      dsimp only
      obtain ⟨k1, k2⟩ := nested_defined hc c.env op (fun u hu => hm.2 tr i st.sock.trace u (hu ▸ hn)) st hst
      rcases hr : nestedWith c.env call op st with ⟨r, st'⟩
      rw [hr] at k1 k2
      cases r with
      | ret _ => exact ih (i + 1) st' k2
      | throw e => exact ⟨nofun, k2⟩
      | block => exact ⟨nofun, k2⟩
      | ub u => exact absurd rfl (k1 u)

theorem callback_defined (c : Code) (hm : c.Modest) (steps depth : Nat) : ∀ mk, Defined conf (callback c steps depth mk) := by
  have key : ∀ (call : Callback) (n : Nat), (∀ mk, Defined conf (call mk)) → ∀ mk, Defined conf (fun st : St => match st.sock.listener with
      | none => (Exit.ret (), st)
      | some l =>
        match liftSock (callListener c.env mk) st with
        | (.ret _, st') => moreWith c call (st.sock.trace ++ [mk l]) n 0 st'
        | r => r) := by
    intro call n hc mk st hst
    obtain ⟨h1, h2⟩ := callListener_defined c.env hm.1 mk st hst
    dsimp only
    cases hl : st.sock.listener with
    | none => exact ⟨nofun, hst⟩
    | some l =>
      dsimp only
      rcases hr : liftSock (callListener c.env mk) st with ⟨r, st'⟩
      rw [hr] at h1 h2
      cases r with
      | ret _ => exact more_defined c hm hc _ n 0 st' h2
      | throw e => exact ⟨nofun, h2⟩
      | block => exact ⟨nofun, h2⟩
      | ub u => exact absurd rfl (h1 u)
  induction depth with
  | zero => exact fun mk st hst => key (fun _ st => (.block, st)) 0 (fun _ st hst => ⟨nofun, hst⟩) mk st hst
  | succ depth ih => exact fun mk st hst => key (callback c steps depth) steps ih mk st hst

end OatWS.Reentrant
