import Verif.Model.WebSocket
import Verif.Spec.Schedule
import Verif.Proofs.Bits
/-! Helper lemmas about the sending side. -/

namespace OatWS
open RFC6455

theorem Healthy.cons {n o sched} (h : Healthy n (o :: sched)) :
    (o = .retry ∧ Healthy n sched) ∨ (∃ m, o = .upTo m ∧ Healthy (n - 1) sched) := by
  obtain ⟨h1, h2⟩ := h
  have ho := h1 o (by simp)
  have hs : ∀ o ∈ sched, o.fine = true := fun x hx => h1 x (by simp [hx])
  cases o with
  | upTo m =>
    refine .inr ⟨m, rfl, hs, ?_⟩
    simp [List.countP_cons, IoOutcome.moves] at h2
    omega
  | retry =>
    refine .inl ⟨rfl, hs, ?_⟩
    simpa [List.countP_cons, IoOutcome.moves] using h2
  | zero => simp [IoOutcome.fine] at ho
  | broken => simp [IoOutcome.fine] at ho

theorem Healthy.mono {n m sched} (h : Healthy n sched) (hm : m ≤ n) : Healthy m sched :=
  ⟨h.1, Nat.le_trans hm h.2⟩

theorem not_healthy_nil {n} : ¬ Healthy (n + 1) [] := by
  intro h
  simpa [List.countP_nil] using h.2

theorem writeExact_spec (sched written data n) :
    ∃ k sc, k ≤ data.length ∧
      ((writeExact sched written data n = (.wrote (n + k), ⟨written ++ data.take k, sc⟩)) ∨
       (k < data.length ∧ writeExact sched written data n = (.blocked, ⟨written ++ data.take k, sc⟩))) := by
  induction sched generalizing written data n with
  | nil =>
    cases data with
    | nil => exact ⟨0, [], by simp [writeExact]⟩
    | cons b bs => exact ⟨0, [], by simp [writeExact]⟩
  | cons o sched ih =>
    cases data with
    | nil => exact ⟨0, o :: sched, by simp [writeExact]⟩
    | cons b bs =>
      cases o with
      | upTo m =>
        have hk1 : min (m + 1) (b :: bs).length ≤ (b :: bs).length := Nat.min_le_right ..
        simp only [writeExact]
        generalize min (m + 1) (b :: bs).length = k1 at hk1 ⊢
        obtain ⟨k, sc, hk, h⟩ := ih (written ++ (b :: bs).take k1) ((b :: bs).drop k1) (n + k1)
        rw [List.length_drop] at hk h
        refine ⟨k1 + k, sc, by omega, ?_⟩
        rw [List.append_assoc, ← List.take_add, Nat.add_assoc] at h
        rcases h with h | ⟨hlt, h⟩
        · exact .inl h
        · exact .inr ⟨by omega, h⟩
      | retry => exact ih written (b :: bs) n
      | zero => exact ⟨0, sched, by simp [writeExact]⟩
      | broken => exact ⟨0, sched, by simp [writeExact]⟩

theorem writeExact_live (sched written data n m) (h : Healthy (data.length + m) sched) :
    ∃ sc, Healthy m sc ∧ writeExact sched written data n = (.wrote (n + data.length), ⟨written ++ data, sc⟩) := by
  induction sched generalizing written data n with
  | nil =>
    cases data with
    | nil => exact ⟨[], by simpa using h, by simp [writeExact]⟩
    | cons b bs =>
      exfalso
      rw [List.length_cons, Nat.succ_add] at h
      exact not_healthy_nil h
  | cons o sched ih =>
    cases data with
    | nil => exact ⟨o :: sched, by simpa using h, by simp [writeExact]⟩
    | cons b bs =>
      rcases h.cons with ⟨rfl, h'⟩ | ⟨j, rfl, h'⟩
      · simpa [writeExact] using ih written (b :: bs) n h'
      · have hk1 : min (j + 1) (b :: bs).length ≤ (b :: bs).length := Nat.min_le_right ..
        have hk2 : 1 ≤ min (j + 1) (b :: bs).length := by simp
        simp only [writeExact]
        generalize min (j + 1) (b :: bs).length = k1 at hk1 hk2 ⊢
        obtain ⟨sc, hsc, e⟩ := ih (written ++ (b :: bs).take k1) ((b :: bs).drop k1) (n + k1)
          (h'.mono (by rw [List.length_drop]; omega))
        refine ⟨sc, hsc, ?_⟩
        have : n + k1 + ((b :: bs).length - k1) = n + (b :: bs).length := by omega
        rw [e, List.append_assoc, List.take_append_drop, List.length_drop, this]

/-! ### Programs that write -/

def Err.isWrite : Err → Prop
  | .headerWrite | .len2Write | .len3Write | .maskWrite => True
  | _ => False

/-- State `s` after `bs` was appended to the connection. -/
def Sock.wrote (s : Sock) (bs : List UInt8) (sched : List IoOutcome) : Sock :=
  { s with out := ⟨s.out.written ++ bs, sched⟩ }

/-- The program run from `s` ended as `r`: it either wrote all of `bs` and returned `a`, or wrote a proper prefix and
blocked or threw; with a healthy schedule it is the former. -/
structure Wrote {α} (s : Sock) (bs : List UInt8) (a : α) (r : Exit α × Sock) : Prop where
  outcome : (∃ sc, r = (.ret a, s.wrote bs sc)) ∨
    (∃ k sc, k < bs.length ∧ (r = (.block, s.wrote (bs.take k) sc) ∨
      ∃ e, e.isWrite ∧ r = (.throw e, s.wrote (bs.take k) sc)))
  live : ∀ m, Healthy (bs.length + m) s.out.sched → ∃ sc, Healthy m sc ∧ r = (.ret a, s.wrote bs sc)

theorem Sock.wrote_wrote (s : Sock) (a b sc sc') : (s.wrote a sc).wrote b sc' = s.wrote (a ++ b) sc' := by
  simp [Sock.wrote, List.append_assoc]

theorem Sock.wrote_nil (s : Sock) : s.wrote [] s.out.sched = s := by
  simp [Sock.wrote]

theorem Wrote.pure {α} (s : Sock) (a : α) : Wrote s [] a ((Pure.pure a : P Sock α) s) := by
  constructor
  · exact .inl ⟨s.out.sched, by rw [s.wrote_nil]; rfl⟩
  · intro m hm
    exact ⟨s.out.sched, by simpa using hm, by rw [s.wrote_nil]; rfl⟩

theorem Wrote.bind {α β} {m : P Sock α} {f : α → P Sock β} {s bs bs' a b}
    (h1 : Wrote s bs a (m s)) (h2 : ∀ sc, Wrote (s.wrote bs sc) bs' b (f a (s.wrote bs sc))) :
    Wrote s (bs ++ bs') b ((m >>= f) s) := by
  have hb : (m >>= f) s = P.bind m f s := rfl
  constructor
  · rcases h1.outcome with ⟨sc, e⟩ | ⟨k, sc, hk, e | ⟨er, her, e⟩⟩
    · rw [hb, P.bind, e]
      rcases (h2 sc).outcome with ⟨sc', e'⟩ | ⟨k, sc', hk, e' | ⟨er, her, e'⟩⟩
      · exact .inl ⟨sc', by simp [e', Sock.wrote_wrote]⟩
      · refine .inr ⟨bs.length + k, sc', by simp [hk], .inl ?_⟩
        simp [e', Sock.wrote_wrote, List.take_length_add_append]
      · refine .inr ⟨bs.length + k, sc', by simp [hk], .inr ⟨er, her, ?_⟩⟩
        simp [e', Sock.wrote_wrote, List.take_length_add_append]
    · refine .inr ⟨k, sc, by simp; omega, .inl ?_⟩
      rw [hb, P.bind, e, List.take_append_of_le_length (by omega)]
    · refine .inr ⟨k, sc, by simp; omega, .inr ⟨er, her, ?_⟩⟩
      rw [hb, P.bind, e, List.take_append_of_le_length (by omega)]
  · intro m' hm
    obtain ⟨sc, hsc, e⟩ := h1.live (bs'.length + m') (by simpa [Nat.add_assoc] using hm)
    obtain ⟨sc', hsc', e'⟩ := (h2 sc).live m' hsc
    exact ⟨sc', hsc', by rw [hb, P.bind, e]; simp [e', Sock.wrote_wrote]⟩

theorem connWriteExact_eq (data : List UInt8) (s : Sock) :
    connWriteExact data s = match writeExact s.out.sched s.out.written data 0 with
      | (.wrote n, out') => (.ret n, { s with out := out' })
      | (.blocked, out') => (.block, { s with out := out' }) := rfl

theorem writeExpect_wrote (data : List UInt8) (e : Err) (he : e.isWrite) (n : Nat) (hn : data.length = n) (s : Sock) :
    Wrote s data () (writeExpect data n e s) := by
  subst hn
  have hb : writeExpect data data.length e s
      = P.bind (connWriteExact data) (fun res => if res ≠ data.length then P.fail e else Pure.pure ()) s := rfl
  constructor
  · obtain ⟨k, sc, hk, h | ⟨hlt, h⟩⟩ := writeExact_spec s.out.sched s.out.written data 0
    · rw [hb, P.bind, connWriteExact_eq, h]
      by_cases hkl : k = data.length
      · refine .inl ⟨sc, ?_⟩
        simp [hkl, Sock.wrote]
        rfl
      · refine .inr ⟨k, sc, by omega, .inr ⟨e, he, ?_⟩⟩
        simp [hkl, P.fail, Sock.wrote]
    · rw [hb, P.bind, connWriteExact_eq, h]
      exact .inr ⟨k, sc, hlt, .inl rfl⟩
  · intro m hm
    obtain ⟨sc, hsc, h⟩ := writeExact_live s.out.sched s.out.written data 0 m hm
    refine ⟨sc, hsc, ?_⟩
    rw [hb, P.bind, connWriteExact_eq, h]
    simp [Sock.wrote]
    rfl

/-! ### Header bytes -/

/-- The masking key of a header, as an optional key of the specification. -/
def Header.key (h : Header) : Option (List UInt8) := if h.hasMask then some h.mask.bytes else none

/-- The RFC header octets for a model header. -/
def Header.wire (h : Header) : List UInt8 :=
  encodeHeader h.fin h.rsv1 h.rsv2 h.rsv3 (h.opcode.toNat % 16) h.key h.payloadLength.toNat

theorem bigEndian_two (n : Nat) : bigEndian 2 n = [UInt8.ofNat (n / 256 % 256), UInt8.ofNat (n % 256)] := by
  simp [bigEndian]

theorem bigEndian_eight (n : Nat) (h : n < 2 ^ 63) :
    bigEndian 8 n = store32 .big (UInt32.ofNat (n / 4294967296)) ++ store32 .big (UInt32.ofNat (n % 4294967296)) := by
  have hq : n / 4294967296 < 4294967296 := by omega
  have hr : n % 4294967296 < 4294967296 := by omega
  simp only [bigEndian, store32, ofNat32 hq, ofNat32 hr, List.cons_append, List.nil_append, Nat.reducePow,
    List.cons.injEq, and_true]
  refine ⟨?_, ?_, ?_, ?_, ?_, ?_, ?_, ?_⟩ <;> (try congr 1) <;> first | trivial | omega

theorem writeFrameHeader_wrote (env : Env) (h : Header) (h0 : 0 ≤ h.payloadLength) (h1 : h.payloadLength < 2 ^ 63)
    (s : Sock) : Wrote s h.wire () (writeFrameHeader env h s) := by
  have hp := pack_bits_toNat h
  have hsc := pack_scenario h
  obtain ⟨n, hn⟩ : ∃ n : Nat, h.payloadLength = n := ⟨h.payloadLength.toNat, by omega⟩
  -- the two header bytes
  have w1 : ∀ s, Wrote s [UInt8.ofNat (flag h.fin 128 + flag h.rsv1 64 + flag h.rsv2 32 + flag h.rsv3 16
        + h.opcode.toNat % 16), UInt8.ofNat (flag h.key.isSome 128 + (lengthField n).1)] ()
      (writeExpect (store16 env.host (hton16 env.host (packHeaderBits h).1)) 2 .headerWrite s) := by
    intro s
    have e : store16 env.host (hton16 env.host (packHeaderBits h).1)
        = [UInt8.ofNat (flag h.fin 128 + flag h.rsv1 64 + flag h.rsv2 32 + flag h.rsv3 16
          + h.opcode.toNat % 16), UInt8.ofNat (flag h.key.isSome 128 + (lengthField n).1)] := by
      rw [store16_hton16, hp]
      have hlc : lenCode h.payloadLength = (lengthField n).1 := by
        unfold lenCode lengthField
        rw [hn]
        by_cases c1 : n ≤ 125
        · have c1' : (n : Int) < 126 := by omega
          rw [if_pos c1, if_pos c1']; show _ = n; omega
        · have c1' : ¬ (n : Int) < 126 := by omega
          rw [if_neg c1, if_neg c1']
          by_cases c2 : n ≤ 65535
          · have c2' : (n : Int) < 65536 := by omega
            rw [if_pos c2, if_pos c2']
          · have c2' : ¬ (n : Int) < 65536 := by omega
            rw [if_neg c2, if_neg c2']
      have hlt := lenCode_lt h.payloadLength
      rw [hlc] at hlt ⊢
      have hk : h.key.isSome = h.hasMask := by unfold Header.key; cases h.hasMask <;> rfl
      rw [hk]
      have ho : h.opcode.toNat % 16 < 16 := Nat.mod_lt _ (by decide)
      have hm : flag h.hasMask 128 ≤ 128 := by cases h.hasMask <;> decide
      have f1 : flag h.fin 32768 = 256 * flag h.fin 128 := by cases h.fin <;> rfl
      have f2 : flag h.rsv1 16384 = 256 * flag h.rsv1 64 := by cases h.rsv1 <;> rfl
      have f3 : flag h.rsv2 8192 = 256 * flag h.rsv2 32 := by cases h.rsv2 <;> rfl
      have f4 : flag h.rsv3 4096 = 256 * flag h.rsv3 16 := by cases h.rsv3 <;> rfl
      simp only [f1, f2, f3, f4, List.cons.injEq, and_true]
      constructor <;> congr 1 <;> omega
    rw [e]
    exact writeExpect_wrote _ _ (by simp [Err.isWrite]) _ rfl s
  -- the extended length
  have w2 : ∀ s, Wrote s (lengthField n).2 () (writeLength env h (packHeaderBits h).2 s) := by
    intro s
    rw [hsc, hn]
    unfold lengthField
    by_cases c1 : n ≤ 125
    · have c1' : (n : Int) < 126 := by omega
      rw [if_pos c1, if_pos c1']
      exact Wrote.pure s ()
    · have c1' : ¬ (n : Int) < 126 := by omega
      rw [if_neg c1, if_neg c1']
      by_cases c2 : n ≤ 65535
      · have c2' : (n : Int) < 65536 := by omega
        rw [if_pos c2, if_pos c2']
        show Wrote s (bigEndian 2 n) () (writeExpect (store16 env.host (hton16 env.host
          (UInt16.ofNat (h.payloadLength % 65536).toNat))) 2 .len2Write s)
        have e : store16 env.host (hton16 env.host (UInt16.ofNat (h.payloadLength % 65536).toNat))
            = bigEndian 2 n := by
          rw [store16_hton16, bigEndian_two, ofNat16 (by omega), hn]
          simp only [List.cons.injEq, and_true]
          constructor <;> congr 1 <;> omega
        rw [e]
        exact writeExpect_wrote _ _ (by simp [Err.isWrite]) _ rfl s
      · have c2' : ¬ (n : Int) < 65536 := by omega
        rw [if_neg c2, if_neg c2']
        show Wrote s (bigEndian 8 n) () (writeExpect (store32 env.host (hton32 env.host
          (UInt32.ofNat (h.payloadLength / 4294967296 % 4294967296).toNat)) ++ store32 env.host (hton32 env.host
          (UInt32.ofNat (h.payloadLength % 4294967296).toNat))) 8 .len3Write s)
        have e : store32 env.host (hton32 env.host
          (UInt32.ofNat (h.payloadLength / 4294967296 % 4294967296).toNat)) ++ store32 env.host (hton32 env.host
          (UInt32.ofNat (h.payloadLength % 4294967296).toNat)) = bigEndian 8 n := by
          have hq : (h.payloadLength / 4294967296 % 4294967296).toNat = n / 4294967296 := by omega
          have hr : (h.payloadLength % 4294967296).toNat = n % 4294967296 := by omega
          rw [bigEndian_eight n (by omega), store32_hton32, store32_hton32, hq, hr]
          rfl
        rw [e]
        exact writeExpect_wrote _ _ (by simp [Err.isWrite]) _ rfl s
  -- the key
  have w3 : ∀ s, Wrote s (h.key.getD []) () (writeMask h s) := by
    intro s
    unfold writeMask Header.key
    cases h.hasMask
    · exact Wrote.pure s ()
    · exact writeExpect_wrote _ _ (by simp [Err.isWrite]) _ rfl s
  have hw : h.wire = [UInt8.ofNat (flag h.fin 128 + flag h.rsv1 64 + flag h.rsv2 32 + flag h.rsv3 16
        + h.opcode.toNat % 16), UInt8.ofNat (flag h.key.isSome 128 + (lengthField n).1)]
        ++ ((lengthField n).2 ++ h.key.getD []) := by
    have : h.payloadLength.toNat = n := by omega
    rw [Header.wire, this, encodeHeader, List.append_assoc]
  rw [hw]
  unfold writeFrameHeader
  exact Wrote.bind (w1 s) fun sc => Wrote.bind (w2 _) fun sc' => w3 _

end OatWS
