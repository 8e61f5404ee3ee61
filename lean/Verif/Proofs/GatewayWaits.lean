import Verif.Spec.Gateway
import Verif.Proofs.Gateway
import Verif.Proofs.AsyncHeader
/-! Nothing but a connection holds the thread up. -/

namespace OatWS

/-! ## Writing -/

/-- When `m` waits, the connection will not do any more writes. -/
def OutWaits {α : Type} (m : P Sock α) : Prop := ∀ s, (m s).1 = .block → (m s).2.out.sched = []

theorem OutWaits.pure {α : Type} (a : α) : OutWaits (Pure.pure a : P Sock α) := fun _ h => nomatch h
theorem OutWaits.fail {α : Type} (e : Err) : OutWaits (P.fail e : P Sock α) := fun _ h => nomatch h
theorem OutWaits.undef {α : Type} (u : UB) : OutWaits (P.undef u : P Sock α) := fun _ h => nomatch h

theorem OutWaits.bind {α β : Type} {m : P Sock α} {f : α → P Sock β} (h : OutWaits m) (h' : ∀ a, OutWaits (f a)) : OutWaits (m >>= f) := by
  intro s
  have h := h s
  rw [P.bind_def, P.bind]
  rcases hm : m s with ⟨r, s'⟩
  rw [hm] at h
  cases r with
  | ret a => exact h' a s'
  | throw e => exact nofun
  | block => exact fun _ => h rfl
  | ub u => exact nofun

theorem OutWaits.ite {α : Type} {c : Prop} [Decidable c] {a b : P Sock α} (ha : OutWaits a) (hb : OutWaits b) : OutWaits (if c then a else b) := by
  split
  · exact ha
  · exact hb

theorem writeExact_waits (sched : List IoOutcome) (written data : List UInt8) (n : Nat) : (writeExact sched written data n).1 = .blocked → (writeExact sched written data n).2.sched = [] := by
  induction sched generalizing written data n with
  | nil =>
    cases data with
    | nil => exact nofun
    | cons b bs => exact fun _ => rfl
  | cons o sched ih =>
    cases data with
    | nil => exact nofun
    | cons b bs =>
      cases o with
      | upTo m => exact ih _ _ _
      | retry => exact ih _ _ _
      | zero => exact nofun
      | broken => exact nofun

theorem connWriteExact_waits (data : List UInt8) : OutWaits (connWriteExact data) := by
  intro s
  have h := writeExact_waits s.out.sched s.out.written data 0
  unfold connWriteExact
  rcases hw : writeExact s.out.sched s.out.written data 0 with ⟨r, o⟩
  rw [hw] at h
  cases r with
  | wrote n => exact nofun
  | blocked => exact fun _ => h rfl

theorem writeExpect_waits (data : List UInt8) (n : Nat) (e : Err) : OutWaits (writeExpect data n e) :=
  (connWriteExact_waits data).bind fun _ => .ite (.fail _) (.pure _)

theorem sendFrameHeader_waits (env : Env) (h : Header) (fin : Bool) (op : UInt8) (n : Int) : OutWaits (sendFrameHeader env h fin op n) := by
  unfold sendFrameHeader
  have hw : ∀ h : Header, OutWaits (do writeFrameHeader env h; pure h) := by
    intro h
    refine OutWaits.bind ?_ fun _ => .pure _
    unfold writeFrameHeader writeLength writeMask
    refine OutWaits.bind (writeExpect_waits _ _ _) fun _ => OutWaits.bind ?_ fun _ => ?_
    · exact .ite (writeExpect_waits _ _ _) (.ite (writeExpect_waits _ _ _) (.pure _))
    · exact .ite (writeExpect_waits _ _ _) (.pure _)
  have hget : OutWaits (P.get : P Sock Sock) := fun _ h => nomatch h
  have hg : ∀ h : Header, OutWaits (generateMaskForFrame env h) := fun _ _ h => nomatch h
  exact hget.bind fun s => .ite ((hg _).bind hw) (OutWaits.bind (.pure _) hw)

theorem sendOneFrame_waits (env : Env) (fin : Bool) (op : UInt8) (m : Option (List UInt8)) : OutWaits (sendOneFrame env fin op m) := by
  match m with
  | none => exact (sendFrameHeader_waits env default fin op 0).bind fun _ => .pure _
  | some [] => exact (sendFrameHeader_waits env default fin op 0).bind fun _ => .pure _
  | some (b :: bs) =>
    exact (sendFrameHeader_waits env default fin op _).bind fun h => .ite (.ite (.undef _) ((connWriteExact_waits _).bind fun _ => .pure _)) ((connWriteExact_waits _).bind fun _ => .pure _)

theorem send_waits (env : Env) (c : SendCall) : OutWaits (send env c) := by
  have h : ∀ op m, OutWaits (sendOrStop env op m) := by
    intro op m
    unfold sendOrStop
    refine (sendOneFrame_waits env true op m).bind fun b => .ite (.pure _) (OutWaits.bind ?_ fun _ => .fail _)
    exact fun _ h => nomatch h
  cases c with
  | oneFrame fin op m => exact (sendOneFrame_waits env fin op m).bind fun _ => .pure _
  | _ => exact h _ _

theorem runUserOp_waits (env : Env) (u : UserOp) : OutWaits (runUserOp env u) := by
  cases u with
  | send call catches =>
    intro s
    have h := send_waits env call s
    show (match send env call s with
      | (.throw e, s') => if catches then (Exit.ret (), s') else (Exit.throw e, s')
      | r => r).1 = _ → (match send env call s with
      | (.throw e, s') => if catches then (Exit.ret (), s') else (Exit.throw e, s')
      | r => r).2.out.sched = []
    rcases hr : send env call s with ⟨r, s'⟩
    rw [hr] at h
    cases r with
    | throw e => cases catches <;> exact nofun
    | ret _ => exact nofun
    | block => exact h
    | ub u => exact nofun
  | throw => exact nofun
  | _ => exact nofun

/-! ## Reading -/

/-- When `m` waits, the connection will not do any more reads or writes; and reads are used up, at least `n` if it returns. -/
def InWaits {α : Type} (n : Nat) (m : P St α) : Prop := ∀ s, ((m s).1 = .block → (m s).2.inp.sched = [] ∨ (m s).2.sock.out.sched = []) ∧ (m s).2.inp.sched.length ≤ s.inp.sched.length ∧
  ∀ a, (m s).1 = .ret a → (m s).2.inp.sched.length + n ≤ s.inp.sched.length

theorem InWaits.pure {α : Type} (a : α) : InWaits 0 (Pure.pure a : P St α) := fun _ => ⟨nofun, Nat.le_refl _, fun _ _ => Nat.le_refl _⟩
theorem InWaits.fail {α : Type} (n : Nat) (e : Err) : InWaits n (P.fail e : P St α) := fun _ => ⟨nofun, Nat.le_refl _, nofun⟩

theorem InWaits.bind {α β : Type} {n : Nat} {m : P St α} {f : α → P St β} (h : InWaits n m) (h' : ∀ a, InWaits 0 (f a)) : InWaits n (m >>= f) := by
  intro s
  obtain ⟨h1, h2, h3⟩ := h s
  rw [P.bind_def, P.bind]
  rcases hm : m s with ⟨r, s'⟩
  rw [hm] at h1 h2 h3
  cases r with
  | ret a =>
    obtain ⟨g1, g2, g3⟩ := h' a s'
    have := h3 a rfl
    exact ⟨g1, Nat.le_trans g2 h2, fun b hb => by have := g3 b hb; dsimp only at *; omega⟩
  | throw e => exact ⟨nofun, h2, nofun⟩
  | block => exact ⟨fun _ => h1 rfl, h2, nofun⟩
  | ub u => exact ⟨nofun, h2, nofun⟩

theorem InWaits.ite {α : Type} {n : Nat} {c : Prop} [Decidable c] {a b : P St α} (ha : InWaits n a) (hb : InWaits n b) : InWaits n (if c then a else b) := by
  split
  · exact ha
  · exact hb

theorem InWaits.zero {α : Type} {n : Nat} {m : P St α} (h : InWaits n m) : InWaits 0 m := fun s => ⟨(h s).1, (h s).2.1, fun _ _ => (h s).2.1⟩

theorem readExact_waits (sched : List IoOutcome) (bytes : List UInt8) (n : Nat) (acc : List UInt8) :
    ((readExact sched bytes n acc).1 = .blocked → (readExact sched bytes n acc).2.sched = []) ∧ (readExact sched bytes n acc).2.sched.length ≤ sched.length ∧
      (0 < n → ∀ a, (readExact sched bytes n acc).1 = .got a → (readExact sched bytes n acc).2.sched.length + 1 ≤ sched.length) := by
  induction sched generalizing bytes n acc with
  | nil =>
    cases n with
    | zero => exact ⟨nofun, by rw [readExact]; exact Nat.le_refl _, fun h => absurd h (Nat.lt_irrefl _)⟩
    | succ n => exact ⟨fun _ => rfl, Nat.le_refl _, fun _ => nofun⟩
  | cons o sched ih =>
    cases n with
    | zero => exact ⟨nofun, by rw [readExact]; exact Nat.le_refl _, fun h => absurd h (Nat.lt_irrefl _)⟩
    | succ n =>
      rw [readExact]
      rcases he : lowRead o bytes (n + 1) with ⟨r, bytes'⟩
      cases r with
      | data bs =>
        obtain ⟨h1, h2, -⟩ := ih bytes' (n + 1 - bs.length) (acc ++ bs)
        exact ⟨h1, Nat.le_succ_of_le h2, fun _ _ _ => Nat.succ_le_succ h2⟩
      | retry =>
        obtain ⟨h1, h2, -⟩ := ih bytes' (n + 1) acc
        exact ⟨h1, Nat.le_succ_of_le h2, fun _ _ _ => Nat.succ_le_succ h2⟩
      | zero => exact ⟨nofun, Nat.le_succ _, fun _ _ _ => Nat.le_refl _⟩
      | broken => exact ⟨nofun, Nat.le_succ _, fun _ _ _ => Nat.le_refl _⟩

theorem connReadExact_waits (n : Nat) : InWaits 1 (connReadExact (n + 1)) := by
  intro st
  obtain ⟨h1, h2, h3⟩ := readExact_waits st.inp.sched st.inp.bytes (n + 1) []
  unfold connReadExact
  rcases hr : readExact st.inp.sched st.inp.bytes (n + 1) [] with ⟨r, i⟩
  rw [hr] at h1 h2 h3
  cases r with
  | got bs => exact ⟨nofun, h2, fun _ _ => h3 (Nat.succ_pos n) _ rfl⟩
  | blocked => exact ⟨fun _ => .inl (h1 rfl), h2, nofun⟩

theorem readLength_waits (env : Env) (l : UInt8) : InWaits 0 (readLength env l) := by
  unfold readLength
  refine .ite (.pure _) (.ite ((connReadExact_waits 1).zero.bind fun bs => ?_) ((connReadExact_waits 7).zero.bind fun bs => ?_))
  · split
    · exact .pure _
    · exact .fail _ _
  · split
    · exact .pure _
    · exact .fail _ _

theorem readFrameHeader_waits (env : Env) (h : Header) : InWaits 1 (readFrameHeader env h) := by
  unfold readFrameHeader
  refine (connReadExact_waits 1).bind fun bs => ?_
  split
  · refine (readLength_waits env _).bind fun len => .ite ((connReadExact_waits 3).zero.bind fun bs => ?_) (.pure _)
    split
    · exact .pure _
    · exact .fail _ _
  · exact .fail _ _

theorem liftSock_waits {α : Type} {m : P Sock α} (h : OutWaits m) : InWaits 0 (liftSock m) := fun s => ⟨fun hb => .inr (h _ hb), Nat.le_refl _, fun _ _ => Nat.le_refl _⟩

/-- When `m` does not wait, it has used up at least `n` reads. -/
def Uses {α : Type} (n : Nat) (m : P St α) : Prop := ∀ s, (m s).1 ≠ .block → (m s).2.inp.sched.length + n ≤ s.inp.sched.length

theorem Uses.bind {α β : Type} {n : Nat} {m : P St α} {f : α → P St β} (h : Uses n m) (h' : ∀ a, InWaits 0 (f a)) : Uses n (m >>= f) := by
  intro s
  have h := h s
  rw [P.bind_def, P.bind]
  rcases hm : m s with ⟨r, s'⟩
  rw [hm] at h
  cases r with
  | ret a => exact fun _ => Nat.le_trans (Nat.add_le_add_right (h' a s').2.1 _) (h nofun)
  | throw e => exact fun _ => h nofun
  | block => exact fun hb => absurd rfl hb
  | ub u => exact fun _ => h nofun

theorem connReadExact_uses (n : Nat) : Uses 1 (connReadExact (n + 1)) := by
  intro st
  have h3 := (readExact_waits st.inp.sched st.inp.bytes (n + 1) []).2.2
  unfold connReadExact
  rcases hr : readExact st.inp.sched st.inp.bytes (n + 1) [] with ⟨r, i⟩
  rw [hr] at h3
  cases r with
  | got bs => exact fun _ => h3 (Nat.succ_pos n) _ rfl
  | blocked => exact fun hb => absurd rfl hb

theorem readFrameHeader_uses (env : Env) (h : Header) : Uses 1 (readFrameHeader env h) := by
  unfold readFrameHeader
  refine (connReadExact_uses 1).bind fun bs => ?_
  split
  · refine (readLength_waits env _).bind fun len => .ite ((connReadExact_waits 3).zero.bind fun bs => ?_) (.pure _)
    split
    · exact .pure _
    · exact .fail _ _
  · exact .fail _ _

theorem InWaits.uses {α : Type} {m : P St α} (h : InWaits 0 m) : Uses 0 m := fun s _ => (h s).2.1

end OatWS

namespace OatWS.Gateway
open RFC6455
open Reentrant (NestedOp)

/-- The number of reads that the connection of socket `k` will still do. -/
def left (k : Nat) (w : World) : Nat := (w.socks k).inp.sched.length

/-- From worlds that are `ok`: when `m` waits, a connection will not do any more; and reads are used up, at least `n` of those of socket `k` if it does not wait. -/
def Live (ok : World → Prop) (k n : Nat) {α : Type} (m : P World α) : Prop := ∀ w, ok w → ((m w).1 = .block → Waiting (m w).2) ∧ (∀ j, left j (m w).2 ≤ left j w) ∧ ((m w).1 ≠ .block → left k (m w).2 + n ≤ left k w)

/-- Reads that are used up leave the world `ok`. -/
def Down (ok : World → Prop) : Prop := ∀ w w', ok w → (∀ j, left j w' ≤ left j w) → ok w'

variable {k n : Nat} {call : Callback} {ok ok' : World → Prop}

theorem Live.pure {α : Type} (a : α) : Live ok k 0 (Pure.pure a : P World α) := fun _ _ => ⟨nofun, fun _ => Nat.le_refl _, fun _ => Nat.le_refl _⟩
theorem Live.fail {α : Type} (e : Err) : Live ok k 0 (P.fail e : P World α) := fun _ _ => ⟨nofun, fun _ => Nat.le_refl _, fun _ => Nat.le_refl _⟩

theorem Live.bind {α β : Type} {m : P World α} {f : α → P World β} (hd : Down ok) (h : Live ok k 0 m) (h' : ∀ a, Live ok k 0 (f a)) : Live ok k 0 (m >>= f) := by
  intro w hw
  obtain ⟨h1, h2, -⟩ := h w hw
  rw [bind_eq]
  rcases hm : m w with ⟨r, w'⟩
  rw [hm] at h1 h2
  cases r with
  | ret a =>
    obtain ⟨g1, g2, -⟩ := h' a w' (hd w w' hw h2)
    exact ⟨g1, fun j => Nat.le_trans (g2 j) (h2 j), fun _ => Nat.le_trans (g2 k) (h2 k)⟩
  | throw e => exact ⟨nofun, h2, fun _ => h2 k⟩
  | block => exact ⟨fun _ => h1 rfl, h2, fun _ => h2 k⟩
  | ub u => exact ⟨nofun, h2, fun _ => h2 k⟩

theorem left_put (w : World) (s : St) (h : s.inp.sched.length ≤ (w.socks k).inp.sched.length) : ∀ j, left j (w.put k s) ≤ left j w := by
  intro j
  unfold left
  by_cases hj : j = k
  · subst hj
    rw [put_self]
    exact h
  · rw [put_other w s hj]
    exact Nat.le_refl _

theorem Live.uses {α : Type} {m : P St α} (h : InWaits n m) (hu : Uses n m) : Live ok k n (at' k m) := by
  intro w _
  obtain ⟨h1, h2, -⟩ := h (w.socks k)
  refine ⟨fun hb => ⟨k, ?_⟩, left_put w _ h2, fun ha => ?_⟩
  · show ((w.put k _).socks k).inp.sched = [] ∨ ((w.put k _).socks k).sock.out.sched = []
    rw [put_self]
    exact h1 hb
  · show ((w.put k _).socks k).inp.sched.length + n ≤ _
    rw [put_self]
    exact hu _ ha

theorem Live.at {α : Type} {m : P St α} (h : InWaits 0 m) : Live ok k 0 (at' k m) := .uses h h.uses

theorem payloadLoop_live (hd : Down ok) (hc : ∀ mk, Live ok k 0 (call k mk)) (h : Header) (short : Bool) (cap fuel : Nat) (w : World) (progress : Int) (acc : List UInt8) (hf : left k w ≤ fuel) (hw : ok w) :
    ((payloadLoopOn call k h short cap fuel w progress acc).1 = .block → Waiting (payloadLoopOn call k h short cap fuel w progress acc).2) ∧ ∀ j, left j (payloadLoopOn call k h short cap fuel w progress acc).2 ≤ left j w := by
  induction fuel generalizing w progress acc with
  | zero =>
    rw [payloadLoopOn]
    have : Waiting w := ⟨k, .inl (List.length_eq_zero_iff.mp (Nat.le_zero.mp hf))⟩
    split
    · exact ⟨fun _ => this, fun _ => Nat.le_refl _⟩
    · exact ⟨nofun, fun _ => Nat.le_refl _⟩
  | succ fuel ih =>
    rw [payloadLoopOn]
    split
    · cases hsch : (w.socks k).inp.sched with
      | nil => exact ⟨fun _ => ⟨k, .inl hsch⟩, fun _ => Nat.le_refl _⟩
      | cons o sched =>
        dsimp only
        generalize (if (w.socks k).sock.config.readBufferSize > h.payloadLength - progress then h.payloadLength - progress else (w.socks k).sock.config.readBufferSize) = n
        have less : ∀ b j, left j (w.put k ⟨(w.socks k).sock, ⟨b, sched⟩⟩) ≤ left j w := fun b => left_put w _ (by rw [hsch]; exact Nat.le_succ _)
        have lessk : ∀ b, left k (w.put k ⟨(w.socks k).sock, ⟨b, sched⟩⟩) ≤ fuel := by
          intro b
          unfold left at hf ⊢
          rw [put_self]
          rw [hsch] at hf
          exact Nat.le_of_succ_le_succ hf
        have next : ∀ b p a, ((payloadLoopOn call k h short cap fuel (w.put k ⟨(w.socks k).sock, ⟨b, sched⟩⟩) p a).1 = .block → Waiting (payloadLoopOn call k h short cap fuel (w.put k ⟨(w.socks k).sock, ⟨b, sched⟩⟩) p a).2) ∧
            ∀ j, left j (payloadLoopOn call k h short cap fuel (w.put k ⟨(w.socks k).sock, ⟨b, sched⟩⟩) p a).2 ≤ left j w :=
          fun b p a => ⟨(ih _ p a (lessk b) (hd _ _ hw (less b))).1, fun j => Nat.le_trans ((ih _ p a (lessk b) (hd _ _ hw (less b))).2 j) (less b j)⟩
        split
        · exact ⟨nofun, less _⟩
        · rcases he : lowRead o (w.socks k).inp.bytes n.toNat with ⟨r, bytes'⟩
          cases r with
          | data bs =>
            dsimp only
            split
            · exact ⟨nofun, less _⟩
            · cases short with
              | true => exact next _ _ _
              | false =>
                simp only [Bool.false_eq_true, if_false]
                generalize (if h.hasMask then xorMask h.mask progress.toNat bs else bs) = chunk
                obtain ⟨h1, h2, -⟩ := hc (fun l => .readMessage l h.opcode chunk) (w.put k ⟨(w.socks k).sock, ⟨bytes', sched⟩⟩) (hd _ _ hw (less _))
                rcases hr : call k (fun l => .readMessage l h.opcode chunk) (w.put k ⟨(w.socks k).sock, ⟨bytes', sched⟩⟩) with ⟨r, w'⟩
                rw [hr] at h1 h2
                have h3 : ∀ j, left j w' ≤ left j w := fun j => Nat.le_trans (h2 j) (less _ j)
                cases r with
                | ret a =>
                  obtain ⟨g1, g2⟩ := ih w' (progress + bs.length) acc (Nat.le_trans (h2 k) (lessk _)) (hd _ _ hw h3)
                  exact ⟨g1, fun j => Nat.le_trans (g2 j) (h3 j)⟩
                | throw e => exact ⟨nofun, h3⟩
                | block => exact ⟨fun _ => h1 rfl, h3⟩
                | ub u => exact ⟨nofun, h3⟩
          | retry => exact next _ _ _
          | zero => exact ⟨nofun, less _⟩
          | broken => exact ⟨nofun, less _⟩
    · exact ⟨nofun, fun _ => Nat.le_refl _⟩

theorem get_waits : InWaits 0 (P.get : P St St) := fun _ => ⟨nofun, Nat.le_refl _, fun _ _ => Nat.le_refl _⟩

theorem readPayload_live (hd : Down ok) (hc : ∀ mk, Live ok k 0 (call k mk)) (h : Header) (short : Bool) : Live ok k 0 (readPayloadOn call k h short) := by
  unfold readPayloadOn
  split
  · exact .fail _
  · refine .bind hd (.at get_waits) fun st => ?_
    split
    · exact .fail _
    · refine .bind hd ?_ fun acc => .bind hd ?_ fun _ => .pure _
      · intro w hw
        obtain ⟨h1, h2⟩ := payloadLoop_live hd hc h short (w.socks k).sock.config.readBufferSize.toNat _ w 0 [] (Nat.le_refl _) hw
        exact ⟨h1, h2, fun _ => h2 k⟩
      · unfold endMarkerOn
        split
        · exact hc _
        · exact .pure _

theorem checkFor_waits (h : Header) : OutWaits (checkForContinuation h) := by
  intro s
  unfold checkForContinuation
  by_cases h1 : s.lastOpcode = OPCODE_TEXT.toNat ∨ s.lastOpcode = OPCODE_BINARY.toNat
  · rw [if_pos h1]; exact nofun
  · rw [if_neg h1]
    by_cases h2 : h.fin = true
    · rw [if_pos h2]; exact nofun
    · rw [if_neg h2]; exact nofun

theorem handleFrame_live (hd : Down ok) (hc : ∀ mk, Live ok k 0 (call k mk)) (env : Env) (h : Header) : Live ok k 0 (handleFrameOn env call k h) := by
  have data : Live ok k 0 (do let _ ← readPayloadOn call k h false : P World Unit) := .bind hd (readPayload_live hd hc h false) fun _ => .pure _
  have start : Live ok k 0 (do if ← at' k (liftSock (checkForContinuation h)) then (do let _ ← readPayloadOn call k h false) else P.fail .continuationExpected : P World Unit) := by
    refine .bind hd (.at (liftSock_waits (checkFor_waits h))) fun b => ?_
    split
    · exact data
    · exact .fail _
  unfold handleFrameOn
  split
  · refine .bind hd (.at get_waits) fun st => ?_
    split
    · exact .fail _
    · exact data
  split
  · exact start
  split
  · exact start
  split
  · exact .bind hd (readPayload_live hd hc h true) fun _ => hc _
  split
  · exact .bind hd (readPayload_live hd hc h true) fun _ => hc _
  split
  · exact .bind hd (readPayload_live hd hc h true) fun _ => hc _
  · exact .fail _

/-- A read used up on socket `k` makes an `ok` world `ok'`. -/
def Steps (ok ok' : World → Prop) (k : Nat) : Prop := ∀ w w', ok w → (∀ j, left j w' ≤ left j w) → left k w' + 1 ≤ left k w → ok' w'

theorem iterate_live (hd' : Down ok') (hs : Steps ok ok' k) (hc : ∀ mk, Live ok' k 0 (call k mk)) (env : Env) (h : Header) : Live ok k 1 (iterateOn env call k h) := by
  intro w hw
  obtain ⟨h1, h2, h3⟩ := Live.uses (ok := ok) (readFrameHeader_waits env h) (readFrameHeader_uses env h) w hw
  unfold iterateOn
  rw [bind_eq]
  rcases hr : at' k (readFrameHeader env h) w with ⟨r, w'⟩
  rw [hr] at h1 h2 h3
  cases r with
  | ret h' =>
    have hl := h3 nofun
    obtain ⟨g1, g2, -⟩ := Live.bind hd' (handleFrame_live hd' hc env h') (fun _ => Live.pure h') w' (hs w w' hw h2 hl)
    exact ⟨g1, fun j => Nat.le_trans (g2 j) (h2 j), fun _ => Nat.le_trans (Nat.succ_le_succ (g2 k)) hl⟩
  | throw e => exact ⟨nofun, h2, fun _ => h3 nofun⟩
  | block => exact ⟨fun _ => h1 rfl, h2, fun hb => absurd rfl hb⟩
  | ub u => exact ⟨nofun, h2, fun _ => h3 nofun⟩

theorem listenLoop_live (hd : Down ok) (hd' : Down ok') (hs : Steps ok ok' k) (hc : ∀ mk, Live ok' k 0 (call k mk)) (env : Env) (fuel : Nat) (h : Header) (w : World) (hf : left k w < fuel) (hw : ok w) :
    ((listenLoopOn env call k fuel h w).1 = .block → Waiting (listenLoopOn env call k fuel h w).2) ∧ (∀ j, left j (listenLoopOn env call k fuel h w).2 ≤ left j w) ∧
      ((listenLoopOn env call k fuel h w).1 ≠ .block → left k (listenLoopOn env call k fuel h w).2 + 1 ≤ left k w) := by
  induction fuel generalizing h w with
  | zero => exact absurd hf (Nat.not_lt_zero _)
  | succ fuel ih =>
    obtain ⟨h1, h2, h3⟩ := iterate_live hd' hs hc env h w hw
    unfold listenLoopOn
    rcases hr : iterateOn env call k h w with ⟨r, w'⟩
    rw [hr] at h1 h2 h3
    cases r with
    | ret h' =>
      dsimp only
      have hl := h3 nofun
      split
      · obtain ⟨g1, g2, -⟩ := ih h' w' (by dsimp only at hl; omega) (hd w w' hw h2)
        exact ⟨g1, fun j => Nat.le_trans (g2 j) (h2 j), fun _ => Nat.le_trans (Nat.succ_le_succ (g2 k)) hl⟩
      · exact ⟨nofun, h2, fun _ => hl⟩
    | throw e => exact ⟨nofun, h2, fun _ => h3 nofun⟩
    | block => exact ⟨fun _ => h1 rfl, h2, fun hb => absurd rfl hb⟩
    | ub u => exact ⟨nofun, h2, fun _ => h3 nofun⟩

theorem listen_live (hd : Down ok) (hd' : Down ok') (hs : Steps ok ok' k) (hc : ∀ mk, Live ok' k 0 (call k mk)) (env : Env) (h : Header) : Live ok k 1 (listenOn env call k h) := by
  intro w hw
  have h0 : ∀ j, left j (w.put k { w.socks k with sock := { (w.socks k).sock with listening := true } }) ≤ left j w := left_put w _ (Nat.le_refl _)
  unfold listenOn
  dsimp only
  generalize w.put k { w.socks k with sock := { (w.socks k).sock with listening := true } } = w1 at h0
  obtain ⟨h1, h2, h3⟩ := listenLoop_live hd hd' hs hc env ((w1.socks k).inp.sched.length + 1) h w1 (Nat.lt_succ_self _) (hd w w1 hw h0)
  rcases hr : listenLoopOn env call k ((w1.socks k).inp.sched.length + 1) h w1 with ⟨r, w'⟩
  rw [hr] at h1 h2 h3
  have h4 : ∀ j, left j w' ≤ left j w := fun j => Nat.le_trans (h2 j) (h0 j)
  cases r with
  | ret _ => exact ⟨nofun, h4, fun _ => Nat.le_trans (h3 nofun) (h0 k)⟩
  | throw e => exact ⟨nofun, h4, fun _ => Nat.le_trans (h3 nofun) (h0 k)⟩
  | block => exact ⟨fun _ => h1 rfl, h4, fun hb => absurd rfl hb⟩
  | ub u => exact ⟨nofun, h4, fun _ => Nat.le_trans (h3 nofun) (h0 k)⟩

/-- The number of reads that an operation uses up at least. -/
def least : NestedOp → Nat
  | .op _ => 0
  | _ => 1

theorem nested_live (hd : Down ok) (hd' : Down ok') (env : Env) {op : NestedOp} (hc : Reads op → Steps ok ok' k ∧ ∀ mk, Live ok' k 0 (call k mk)) : Live ok k (least op) (nestedOn env call k op) := by
  cases op with
  | op u => exact fun w hw => Live.at (liftSock_waits (runUserOp_waits env u)) { w with did := w.did ++ [(k, u)] } (hd w _ hw fun _ => Nat.le_refl _)
  | iterate catches =>
    intro w hw
    obtain ⟨h1, h2, h3⟩ := iterate_live hd' (hc trivial).1 (hc trivial).2 env default w hw
    unfold nestedOn
    dsimp only
    rcases hr : iterateOn env call k default w with ⟨r, w'⟩
    rw [hr] at h1 h2 h3
    cases r with
    | ret h' => exact ⟨nofun, h2, fun _ => h3 nofun⟩
    | throw e => cases catches <;> exact ⟨nofun, h2, fun _ => h3 nofun⟩
    | block => exact ⟨fun _ => h1 rfl, h2, fun hb => absurd rfl hb⟩
    | ub u => exact ⟨nofun, h2, fun _ => h3 nofun⟩
  | listen => exact listen_live hd hd' (hc trivial).1 (hc trivial).2 env default

theorem code_live (hd : Down ok) (hd' : Down ok') (c : Code) (tr : List (Nat × Event)) (hc : ∀ i now j op, c.next tr i now = some (j, op) → Reads op → Steps ok ok' j ∧ ∀ mk, Live ok' j 0 (call j mk)) (steps i : Nat)
    (he : ∀ now, c.next tr (i + steps) now = none) : Live ok k 0 (codeOn c call tr steps i) := by
  induction steps generalizing i with
  | zero =>
    intro w hw
    have hb : (c.next tr i w.log).isNone = true := by rw [← Nat.add_zero i, he]; rfl
    unfold codeOn
    rw [if_pos hb]
    exact Live.pure () w hw
  | succ steps ih =>
    intro w hw
    unfold codeOn
    cases hn : c.next tr i w.log with
    | none => exact Live.pure () w hw
    | some x =>
      obtain ⟨j, op⟩ := x
      dsimp only
      obtain ⟨h1, h2, -⟩ := nested_live hd hd' (c.env j) (hc i w.log j op hn) w hw
      rcases hr : nestedOn (c.env j) call j op w with ⟨r, w'⟩
      rw [hr] at h1 h2
      cases r with
      | ret _ =>
        obtain ⟨g1, g2, -⟩ := ih (i + 1) (fun now => by rw [Nat.add_assoc, Nat.add_comm 1]; exact he now) w' (hd w w' hw h2)
        exact ⟨g1, fun j => Nat.le_trans (g2 j) (h2 j), fun _ => Nat.le_trans (g2 k) (h2 k)⟩
      | throw e => exact ⟨nofun, h2, fun _ => h2 k⟩
      | block => exact ⟨fun _ => h1 rfl, h2, fun _ => h2 k⟩
      | ub u => exact ⟨nofun, h2, fun _ => h2 k⟩

theorem called_left (w : World) (k : Nat) (e : Event) (j : Nat) : left j (w.called k e) = left j w := by
  unfold left World.called
  by_cases hj : j = k
  · subst hj
    show ((w.put j _).socks j).inp.sched.length = _
    rw [put_self]
  · show ((w.put k _).socks j).inp.sched.length = _
    rw [put_other w _ hj]

/-- All worlds. -/
def Any : World → Prop := fun _ => True

theorem down_any : Down Any := fun _ _ _ _ => trivial
theorem steps_any : Steps Any Any k := fun _ _ _ _ _ => trivial

theorem callback_live (c : Code) (layer : Nat → Nat) (hl : c.Layered layer) (D : Nat) (hD : ∀ j, layer j ≤ D) (steps : Nat) (hb : c.Brief steps) (depth : Nat) : ∀ j, D < depth + layer j → ∀ mk, Live Any j 0 (callback c steps depth j mk) := by
  induction depth with
  | zero => exact fun j hj => absurd (Nat.lt_of_lt_of_le hj (by rw [Nat.zero_add]; exact hD j)) (Nat.lt_irrefl _)
  | succ depth ih =>
    intro j hj mk w hw
    unfold callback
    split
    · exact Live.pure () w hw
    · rename_i l _
      have h := code_live (k := j) (call := callback c steps depth) down_any down_any c (w.log ++ [(j, mk l)]) (fun i now j' op hn hr => ⟨steps_any, ih j' (by have := hl _ _ _ _ _ _ _ hn hr; omega)⟩) steps 0
        (fun now => by rw [Nat.zero_add]; exact hb _ now) (w.called j (mk l)) trivial
      simp only [called_left] at h
      exact h

/-! ## Without layers -/

theorem readsLeft_le (n : Nat) {w w' : World} (h : ∀ j, left j w' ≤ left j w) : readsLeft n w' ≤ readsLeft n w := by
  induction n with
  | zero => exact Nat.le_refl _
  | succ n ih => exact Nat.add_le_add ih (h n)

theorem readsLeft_lt (n : Nat) {w w' : World} (h : ∀ j, left j w' ≤ left j w) {k : Nat} (hk : k < n) (h' : left k w' + 1 ≤ left k w) : readsLeft n w' + 1 ≤ readsLeft n w := by
  induction n with
  | zero => exact absurd hk (Nat.not_lt_zero _)
  | succ n ih =>
    show readsLeft n w' + left n w' + 1 ≤ readsLeft n w + left n w
    by_cases hkn : k = n
    · subst hkn
      have := readsLeft_le k h
      omega
    · have := ih (by omega)
      have := h n
      omega

theorem left_le (n : Nat) (w : World) {k : Nat} (hk : k < n) : left k w ≤ readsLeft n w := by
  induction n with
  | zero => exact absurd hk (Nat.not_lt_zero _)
  | succ n ih =>
    show left k w ≤ readsLeft n w + left n w
    by_cases hkn : k = n
    · subst hkn
      exact Nat.le_add_left ..
    · exact Nat.le_trans (ih (by omega)) (Nat.le_add_right ..)

/-- At most `d` reads are left on the first `n` sockets. -/
def Few (n d : Nat) : World → Prop := fun w => readsLeft n w ≤ d

theorem down_few (n d : Nat) : Down (Few n d) := fun _ _ hw h => Nat.le_trans (readsLeft_le n h) hw
theorem steps_few (n d : Nat) (hk : k < n) : Steps (Few n (d + 1)) (Few n d) k := fun _ _ hw h h' => Nat.le_of_succ_le_succ (Nat.le_trans (readsLeft_lt n h hk h') hw)

theorem code_few (c : Code) (n : Nat) (hn : c.ReadsBelow n) {b : Nat} (hb : c.BriefBesides b) (d : Nat) (hc : ∀ j, j < n → ∀ mk, Live (Few n d) j 0 (call j mk)) (tr : List (Nat × Event)) (steps i : Nat) (w : World) (hw : Few n (d + 1) w) (hs : b - i + readsLeft n w ≤ steps) :
    ((codeOn c call tr steps i w).1 = .block → Waiting (codeOn c call tr steps i w).2) ∧ ∀ j, left j (codeOn c call tr steps i w).2 ≤ left j w := by
  induction steps generalizing i w with
  | zero =>
    unfold codeOn
    cases hx : c.next tr i w.log with
    | none => exact ⟨nofun, fun _ => Nat.le_refl _⟩
    | some x =>
      obtain ⟨j, op⟩ := x
      have hj : j < n := by
        cases op with
        | op u => exact absurd hx (hb tr i w.log j u (by omega))
        | iterate x => exact hn _ _ _ _ _ hx trivial
        | listen => exact hn _ _ _ _ _ hx trivial
      have hz : left j w = 0 := by have := left_le n w hj; omega
      exact ⟨fun _ => ⟨j, .inl (List.length_eq_zero_iff.mp hz)⟩, fun _ => Nat.le_refl _⟩
  | succ steps ih =>
    unfold codeOn
    cases hx : c.next tr i w.log with
    | none => exact ⟨nofun, fun _ => Nat.le_refl _⟩
    | some x =>
      obtain ⟨j, op⟩ := x
      dsimp only
      obtain ⟨h1, h2, h3⟩ := nested_live (down_few n (d + 1)) (down_few n d) (c.env j) (op := op) (fun hr => ⟨steps_few n d (hn _ _ _ _ _ hx hr), hc j (hn _ _ _ _ _ hx hr)⟩) w hw
      rcases hr : nestedOn (c.env j) call j op w with ⟨r, w'⟩
      rw [hr] at h1 h2 h3
      cases r with
      | ret _ =>
        have hl := h3 nofun
        have hle := readsLeft_le n h2
        have hi : b - (i + 1) + readsLeft n w' ≤ steps := by
          by_cases hbi : b ≤ i
          · have hl1 : readsLeft n w' + 1 ≤ readsLeft n w := by
              cases op with
              | op u => exact absurd hx (hb tr i w.log j u hbi)
              | iterate x => exact readsLeft_lt n h2 (hn _ _ _ _ _ hx trivial) hl
              | listen => exact readsLeft_lt n h2 (hn _ _ _ _ _ hx trivial) hl
            omega
          · dsimp only at hle
            omega
        obtain ⟨g1, g2⟩ := ih (i + 1) w' (down_few n (d + 1) w w' hw h2) hi
        exact ⟨g1, fun j => Nat.le_trans (g2 j) (h2 j)⟩
      | throw e => exact ⟨nofun, h2⟩
      | block => exact ⟨fun _ => h1 rfl, h2⟩
      | ub u => exact ⟨nofun, h2⟩

theorem callback_few (c : Code) (n : Nat) (hn : c.ReadsBelow n) {b : Nat} (hb : c.BriefBesides b) (steps depth : Nat) : ∀ d, d ≤ depth → b + d ≤ steps → ∀ j, j < n → ∀ mk, Live (Few n d) j 0 (callback c steps depth j mk) := by
  induction depth with
  | zero =>
    intro d hd hs j hj mk w hw
    have hz : readsLeft n w ≤ 0 := Nat.le_trans hw hd
    unfold callback
    split
    · exact Live.pure () w hw
    · rename_i l _
      have hz : left j (w.called j (mk l)) = 0 := by rw [called_left]; exact Nat.le_zero.mp (Nat.le_trans (left_le n w hj) hz)
      have hle : ∀ i, left i (w.called j (mk l)) ≤ left i w := fun i => by rw [called_left]; exact Nat.le_refl _
      have e : codeOn c (fun _ _ w => (.block, w)) (w.log ++ [(j, mk l)]) 0 0 (w.called j (mk l)) = if (c.next (w.log ++ [(j, mk l)]) 0 (w.called j (mk l)).log).isNone then (.ret (), w.called j (mk l)) else (.block, w.called j (mk l)) := rfl
      rw [e]
      split
      · exact ⟨nofun, hle, fun _ => hle j⟩
      · exact ⟨fun _ => ⟨j, .inl (List.length_eq_zero_iff.mp hz)⟩, hle, fun _ => hle j⟩
  | succ depth ih =>
    intro d hd hs j hj mk w hw
    unfold callback
    split
    · exact Live.pure () w hw
    · rename_i l _
      have hle : ∀ i, left i (w.called j (mk l)) ≤ left i w := fun i => by rw [called_left]; exact Nat.le_refl _
      have hl : readsLeft n (w.called j (mk l)) ≤ d := Nat.le_trans (readsLeft_le n hle) hw
      obtain ⟨g1, g2⟩ := code_few (call := callback c steps depth) c n hn hb (d - 1) (ih (d - 1) (by omega) (by omega)) (w.log ++ [(j, mk l)]) steps 0 (w.called j (mk l)) (show readsLeft n _ ≤ d - 1 + 1 by omega) (by omega)
      exact ⟨g1, fun i => Nat.le_trans (g2 i) (hle i), fun _ => Nat.le_trans (g2 j) (hle j)⟩

theorem main_few (c : Code) (n : Nat) (hn : c.ReadsBelow n) {b : Nat} (hb : c.BriefBesides b) (steps depth : Nat) (w : World) (hs : b + readsLeft n w ≤ steps) (hd : readsLeft n w ≤ depth) : (main c steps depth w).1 = .block → Waiting (main c steps depth w).2 :=
  (code_few c n hn hb (readsLeft n w) (callback_few c n hn hb steps depth _ hd hs) [] steps 0 w (Nat.le_succ _) (by omega)).1

end OatWS.Gateway
