import Verif.Proofs.Send
import Verif.Proofs.Mask
import Verif.Spec.Receive
/-! Reading a frame header parses the RFC header of exactly the bytes consumed. -/

namespace OatWS
open RFC6455

/-- The state after `k` bytes were consumed. -/
def St.read (st : St) (k : Nat) (sc : List IoOutcome) : St := { st with inp := ⟨st.inp.bytes.drop k, sc⟩ }

theorem St.read_read (st : St) (k k' sc sc') : (st.read k sc).read k' sc' = st.read (k + k') sc' := by
  simp [St.read, List.drop_drop]

theorem St.read_zero (st : St) : st.read 0 st.inp.sched = st := by simp [St.read]

@[simp] theorem St.read_bytes (st : St) (k sc) : (st.read k sc).inp.bytes = st.inp.bytes.drop k := rfl
@[simp] theorem St.read_sched (st : St) (k sc) : (st.read k sc).inp.sched = sc := rfl
@[simp] theorem St.read_sock (st : St) (k sc) : (st.read k sc).sock = st.sock := rfl

/-! ### Exact reads -/

theorem lowRead_data {o bytes count bs bytes'} (h : lowRead o bytes count = (.data bs, bytes')) :
    ∃ n, o = .upTo n ∧ bs = bytes.take bs.length ∧ bytes' = bytes.drop bs.length ∧ 0 < bs.length ∧ bs.length ≤ count ∧
      bs.length ≤ bytes.length := by
  cases o with
  | upTo n =>
    simp only [lowRead] at h
    split at h
    · cases h
    · rename_i hk
      injection h with h1 h2
      injection h1 with h1
      subst h1 h2
      have hl : (bytes.take (min (n + 1) (min count bytes.length))).length = min (n + 1) (min count bytes.length) := by
        rw [List.length_take]; omega
      exact ⟨n, rfl, by rw [hl], by rw [hl], by omega, by omega, by omega⟩
  | retry => simp [lowRead] at h
  | zero => simp [lowRead] at h
  | broken => simp [lowRead] at h

theorem lowRead_other {o bytes count r bytes'} (h : lowRead o bytes count = (r, bytes')) (hr : ∀ bs, r ≠ .data bs) :
    bytes' = bytes := by
  cases o with
  | upTo n =>
    simp only [lowRead] at h
    split at h
    · cases h; rfl
    · cases h; exact absurd rfl (hr _)
  | retry => cases h; rfl
  | zero => cases h; rfl
  | broken => cases h; rfl

/-- With a fine outcome, reading gives 0 only when nothing was wanted or nothing is left. -/
theorem lowRead_zero {o bytes count bytes'} (h : lowRead o bytes count = (.zero, bytes')) (hf : o.fine = true)
    (hc : 0 < count) : bytes = [] := by
  cases o with
  | upTo n =>
    simp only [lowRead] at h
    split at h
    · rename_i hk
      have : bytes.length = 0 := by omega
      exact List.eq_nil_of_length_eq_zero this
    · cases h
  | retry => cases h
  | zero => simp [IoOutcome.fine] at hf
  | broken => cases h

theorem lowRead_broken {o bytes count bytes'} (h : lowRead o bytes count = (.broken, bytes')) : o.fine = false := by
  cases o with
  | upTo n => simp only [lowRead] at h; split at h <;> cases h
  | retry => cases h
  | zero => cases h
  | broken => rfl

theorem lowRead_retry {o bytes count bytes'} (h : lowRead o bytes count = (.retry, bytes')) : o = .retry := by
  cases o with
  | upTo n => simp only [lowRead] at h; split at h <;> cases h
  | retry => rfl
  | zero => cases h
  | broken => cases h

theorem Healthy.retry {n sched} (h : Healthy n (.retry :: sched)) : Healthy n sched := by
  rcases h.cons with ⟨_, h⟩ | ⟨m, h, _⟩
  · exact h
  · cases h

theorem Healthy.upTo {n m sched} (h : Healthy n (.upTo m :: sched)) : Healthy (n - 1) sched := by
  rcases h.cons with ⟨h, _⟩ | ⟨m, _, h⟩
  · cases h
  · exact h

theorem Healthy.fine {n o sched} (h : Healthy n (o :: sched)) : o.fine = true := h.1 o (by simp)

/-- Outcome of an exact read of `need` bytes. -/
theorem readExact_spec (sched bytes need acc) :
    (∃ sc, need ≤ bytes.length ∧ readExact sched bytes need acc = (.got (acc ++ bytes.take need), ⟨bytes.drop need, sc⟩) ∧
      sc.length ≤ sched.length ∧ (0 < need → sc.length < sched.length) ∧
      ∀ j, Healthy (bytes.length + j) sched → Healthy (bytes.length - need + j) sc) ∨
    (∃ k sc, k < need ∧ k ≤ bytes.length ∧ sc.length ≤ sched.length ∧
      (readExact sched bytes need acc = (.got (acc ++ bytes.take k), ⟨bytes.drop k, sc⟩) ∨
       (readExact sched bytes need acc = (.blocked, ⟨bytes.drop k, sc⟩) ∧ ¬ Healthy (bytes.length + 1) sched)) ∧
      (Healthy bytes.length sched → k = bytes.length)) := by
  induction sched generalizing bytes need acc with
  | nil =>
    cases need with
    | zero => exact .inl ⟨[], by simp [readExact]⟩
    | succ need =>
      refine .inr ⟨0, [], by omega, by omega, by simp, .inr ⟨rfl, not_healthy_nil⟩, ?_⟩
      intro h
      have := h.2
      simp at this
      simp [this]
  | cons o sched ih =>
    cases need with
    | zero => exact .inl ⟨o :: sched, by simp [readExact]⟩
    | succ need =>
      rcases hr : lowRead o bytes (need + 1) with ⟨r, bytes'⟩
      have hstep : readExact (o :: sched) bytes (need + 1) acc = match (r, bytes') with
          | (.data bs, bytes') => readExact sched bytes' (need + 1 - bs.length) (acc ++ bs)
          | (.retry, bytes') => readExact sched bytes' (need + 1) acc
          | (.zero, bytes') => (.got acc, ⟨bytes', sched⟩)
          | (.broken, bytes') => (.got acc, ⟨bytes', sched⟩) := by
        rw [readExact, hr]
        cases r <;> rfl
      rw [hstep]
      cases r with
      | data bs =>
        obtain ⟨n, rfl, hbs, hb', hpos, hle, hle'⟩ := lowRead_data hr
        simp only []
        generalize hL : bs.length = L at *
        subst hb' hbs
        rcases ih (bytes.drop L) (need + 1 - L) (acc ++ bytes.take L) with
          ⟨sc, h1, h2, h3, h4, h5⟩ | ⟨k, sc, h1, h2, hsl, h3, h4⟩
        · rw [List.length_drop] at h1 h5
          refine .inl ⟨sc, by omega, ?_, by simp; omega, by simp; omega, ?_⟩
          · rw [h2, List.append_assoc, ← List.take_add, List.drop_drop]
            have : L + (need + 1 - L) = need + 1 := by omega
            rw [this]
          · intro j hj
            have := h5 (j + L - 1) (hj.upTo.mono (by omega))
            exact this.mono (by omega)
        · rw [List.length_drop] at h2 h3 h4
          refine .inr ⟨L + k, sc, by omega, by omega, by simp; omega, ?_, ?_⟩
          · rcases h3 with h3 | ⟨h3, h3'⟩
            · refine .inl ?_
              rw [h3, List.append_assoc, ← List.take_add, List.drop_drop]
            · refine .inr ⟨?_, fun hh => h3' (hh.upTo.mono (by omega))⟩
              rw [h3, List.drop_drop]
          · intro hh
            have := h4 (hh.upTo.mono (by omega))
            omega
      | retry =>
        have ho := lowRead_retry hr
        have hb' := lowRead_other hr (by simp)
        subst ho hb'
        simp only []
        rcases ih bytes' (need + 1) acc with ⟨sc, h1, h2, h3, h4, h5⟩ | ⟨k, sc, h1, h2, hsl, h3, h4⟩
        · exact .inl ⟨sc, h1, h2, by simp; omega, by simp; omega, fun j hj => h5 j hj.retry⟩
        · refine .inr ⟨k, sc, h1, h2, by simp; omega, ?_, fun hh => h4 hh.retry⟩
          rcases h3 with h3 | ⟨h3, h3'⟩
          · exact .inl h3
          · exact .inr ⟨h3, fun hh => h3' hh.retry⟩
      | zero =>
        have hb' := lowRead_other hr (by simp)
        subst hb'
        refine .inr ⟨0, sched, by omega, by omega, by simp, .inl (by simp), ?_⟩
        intro hh
        rw [lowRead_zero hr hh.fine (by omega)]
        rfl
      | broken =>
        have hb' := lowRead_other hr (by simp)
        subst hb'
        refine .inr ⟨0, sched, by omega, by omega, by simp, .inl (by simp), ?_⟩
        intro hh
        have := lowRead_broken hr
        rw [hh.fine] at this
        cases this

/-! ### Readers -/

/-- `r` is the outcome of a reader that parses a prefix of the input. -/
structure Reads {α β : Type} (st : St) (parse : List UInt8 → Option (β × List UInt8)) (good : β → α → Prop)
    (r : Exit α × St) : Prop where
  outcome :
    (∃ k b a sc, k ≤ st.inp.bytes.length ∧ r = (.ret a, st.read k sc) ∧
      (∀ tail, parse (st.inp.bytes.take k ++ tail) = some (b, tail)) ∧ good b a ∧
      sc.length ≤ st.inp.sched.length ∧ (0 < k → sc.length < st.inp.sched.length) ∧
      ∀ j, Healthy (st.inp.bytes.length + j) st.inp.sched → Healthy (st.inp.bytes.length - k + j) sc) ∨
    (∃ k x sc, k ≤ st.inp.bytes.length ∧ sc.length ≤ st.inp.sched.length ∧ r = (x, st.read k sc) ∧
      (x = .block ∧ ¬ Healthy (st.inp.bytes.length + 1) st.inp.sched ∨ ∃ e, e.isRead ∧ x = .throw e) ∧
      parse (st.inp.bytes.take k) = none ∧
      (Healthy st.inp.bytes.length st.inp.sched → k = st.inp.bytes.length))

theorem Reads.pure {α β : Type} {st : St} {good : β → α → Prop} (b : β) (a : α) (h : good b a) :
    Reads st (fun bs => some (b, bs)) good ((Pure.pure a : P St α) st) := by
  refine ⟨.inl ⟨0, b, a, st.inp.sched, by omega, ?_, by simp, h, by omega, by omega, by simp⟩⟩
  rw [St.read_zero]; rfl

theorem Reads.mono {α β : Type} {st : St} {parse} {good good' : β → α → Prop} {r}
    (h : Reads st parse good r) (hg : ∀ b a, good b a → good' b a) : Reads st parse good' r := by
  constructor
  rcases h.outcome with ⟨k, b, a, sc, h1, h2, h3, h4, h5⟩ | h
  · exact .inl ⟨k, b, a, sc, h1, h2, h3, hg _ _ h4, h5⟩
  · exact .inr h

/-- Sequencing of readers. -/
theorem Reads.bind {α α' β β' : Type} {st : St} {m : P St α} {f : α → P St α'} {p good}
    {p' : β → List UInt8 → Option (β' × List UInt8)} {good' : β' → α' → Prop}
    (h1 : Reads st p good (m st))
    (h2 : ∀ k sc b a, good b a → Reads (st.read k sc) (p' b) good' (f a (st.read k sc))) :
    Reads st (fun bs => (p bs).bind fun x => p' x.1 x.2) good' (P.bind m f st) := by
  constructor
  rcases h1.outcome with ⟨k, b, a, sc, hk, e, hp, hg, hs, hs', hh⟩ | ⟨k, x, sc, hk, hsl, e, hx, hp, hh⟩
  · rw [P.bind, e]
    simp only []
    rcases (h2 k sc b a hg).outcome with ⟨k', b', a', sc', hk', e', hp', hg', hs2, hs2', hh'⟩ |
      ⟨k', x, sc', hk', hsl', e', hx, hp', hh'⟩
    · simp only [St.read_bytes, St.read_sched, List.length_drop] at hk' hp' hs2 hs2' hh'
      refine .inl ⟨k + k', b', a', sc', by omega, by rw [e', St.read_read], ?_, hg', by omega, by omega, ?_⟩
      · intro tail
        rw [List.take_add, List.append_assoc, hp]
        exact hp' tail
      · intro j hj
        exact (hh' j (hh j hj)).mono (by omega)
    · simp only [St.read_bytes, St.read_sched, List.length_drop] at hk' hsl' hp' hx hh'
      refine .inr ⟨k + k', x, sc', by omega, by omega, by rw [e', St.read_read], ?_, ?_, ?_⟩
      · rcases hx with ⟨hx, hx'⟩ | hx
        · exact .inl ⟨hx, fun hj => hx' (hh 1 hj)⟩
        · exact .inr hx
      · rw [List.take_add, hp]
        exact hp'
      · intro hj
        have := hh' (hh 0 hj)
        omega
  · rw [P.bind, e]
    have hp' : ((p (st.inp.bytes.take k)).bind fun x => p' x.1 x.2) = none := by rw [hp]; rfl
    rcases hx with ⟨rfl, hx⟩ | ⟨er, her, rfl⟩
    · exact .inr ⟨k, .block, sc, hk, hsl, rfl, .inl ⟨rfl, hx⟩, hp', hh⟩
    · exact .inr ⟨k, .throw er, sc, hk, hsl, rfl, .inr ⟨er, her, rfl⟩, hp', hh⟩

theorem take_self_append {n : Nat} {a tail : List UInt8} (h : a.length = n) :
    takeN n (a ++ tail) = some (a, tail) := by
  subst h; simp [takeN]

/-- `match ← connReadExact n with | <n bytes> => good | _ => fail`. -/
theorem connReadExact_reads {α : Type} (n : Nat) (st : St) (f : List UInt8 → P St α)
    (e : Err) (he : e.isRead) (hf : ∀ bs, bs.length ≠ n → f bs = P.fail e)
    (v : List UInt8 → α) (hv : ∀ bs, bs.length = n → f bs = Pure.pure (v bs)) :
    Reads st (takeN n) (fun bs a => a = v bs) (P.bind (connReadExact n) f st) := by
  constructor
  rcases readExact_spec st.inp.sched st.inp.bytes n [] with ⟨sc, h1, h2, h3, h4, h5⟩ | ⟨k, sc, h1, h2, hsl, h3, h4⟩
  · have hl : (st.inp.bytes.take n).length = n := by rw [List.length_take]; omega
    refine .inl ⟨n, st.inp.bytes.take n, v (st.inp.bytes.take n), sc, h1, ?_, ?_, rfl, h3, h4, h5⟩
    · rw [P.bind, connReadExact, h2]
      simp only [List.nil_append]
      rw [hv _ hl]
      rfl
    · intro tail
      exact take_self_append hl
  · have hl : (st.inp.bytes.take k).length = k := by rw [List.length_take]; omega
    have hp : takeN n (st.inp.bytes.take k) = none := by
      rw [takeN, if_neg (by omega)]
    rcases h3 with h3 | ⟨h3, h3'⟩
    · refine .inr ⟨k, .throw e, sc, h2, hsl, ?_, .inr ⟨e, he, rfl⟩, hp, h4⟩
      rw [P.bind, connReadExact, h3]
      simp only [List.nil_append]
      rw [hf _ (by omega)]
      rfl
    · refine .inr ⟨k, .block, sc, h2, hsl, ?_, .inl ⟨rfl, h3'⟩, hp, h4⟩
      rw [P.bind, connReadExact, h3]
      rfl

theorem P.bind_def {σ α β : Type} (m : P σ α) (f : α → P σ β) : (m >>= f) = P.bind m f := rfl

theorem P.bind_assoc {σ α β γ : Type} (m : P σ α) (f : α → P σ β) (g : β → P σ γ) :
    P.bind (P.bind m f) g = P.bind m (fun a => P.bind (f a) g) := by
  funext s
  unfold P.bind
  rcases m s with ⟨(_ | _ | _ | _), s'⟩ <;> rfl

theorem Reads.congr {α β : Type} {st : St} {p p' : List UInt8 → Option (β × List UInt8)} {good : β → α → Prop} {r}
    (h : Reads st p good r) (hp : ∀ bs, p bs = p' bs) : Reads st p' good r := by
  have : p = p' := funext hp
  rw [← this]; exact h

/-- `match ← connReadExact n with | <n bytes> => ... | _ => fail`, continued by a reader. -/
theorem connReadExact_bind {α β : Type} (n : Nat) (st : St) (f : List UInt8 → P St α)
    (e : Err) (he : e.isRead) (hf : ∀ bs, bs.length ≠ n → f bs = P.fail e)
    {p' : List UInt8 → List UInt8 → Option (β × List UInt8)} {good : β → α → Prop}
    (h2 : ∀ k sc bs, bs.length = n → Reads (st.read k sc) (p' bs) good (f bs (st.read k sc))) :
    Reads st (fun bs => (takeN n bs).bind fun x => p' x.1 x.2) good (P.bind (connReadExact n) f st) := by
  let g : List UInt8 → P St (List UInt8) := fun bs => if bs.length = n then Pure.pure bs else P.fail e
  have hg : P.bind (connReadExact n) f = P.bind (P.bind (connReadExact n) g) f := by
    rw [P.bind_assoc]
    congr 1
    funext bs
    by_cases hb : bs.length = n
    · simp only [g, if_pos hb]; rfl
    · simp only [g, if_neg hb]; rw [hf bs hb]; rfl
  rw [hg]
  have h1 : Reads st (takeN n) (fun bs a => a = bs ∧ bs.length = n) (P.bind (connReadExact n) g st) := by
    have := connReadExact_reads n st g e he (fun bs hb => by simp only [g, if_neg hb]) id
      (fun bs hb => by simp only [g, if_pos hb]; rfl)
    constructor
    rcases this.outcome with ⟨k, b, a, sc, hk, e', hp, hg', h5⟩ | h
    · refine .inl ⟨k, b, a, sc, hk, e', hp, ⟨hg', ?_⟩, h5⟩
      have := hp []
      unfold takeN at this
      split at this
      · rename_i hlt
        injection this with this
        injection this with this
        rw [← this, List.length_take]; omega
      · cases this
    · exact .inr h
  refine Reads.bind h1 ?_
  rintro k sc b a ⟨rfl, hb⟩
  exact h2 k sc a hb

theorem toInt64_small {n : Nat} (h : n < 2 ^ 63) : toInt64 n = n := by
  rw [toInt64, if_pos h]

theorem readLength_reads (env : Env) (m1 : UInt8) (hm : m1.toNat < 128) (st : St) :
    Reads st (parseLength m1.toNat) (fun n a => n < 2 ^ 64 ∧ a = toInt64 n) (readLength env m1 st) := by
  unfold readLength parseLength
  by_cases c1 : m1.toNat ≤ 125
  · have c1' : m1 < 126 := by rw [UInt8.lt_iff_toNat_lt]; exact Nat.lt_succ_of_le c1
    rw [if_pos c1']
    simp only [if_pos c1]
    refine Reads.pure _ _ ⟨by omega, ?_⟩
    rw [toInt64_small (by omega)]
  · have c1' : ¬ m1 < 126 := by rw [UInt8.lt_iff_toNat_lt]; exact fun h => c1 (Nat.le_of_lt_succ h)
    rw [if_neg c1']
    simp only [if_neg c1]
    by_cases c2 : m1.toNat = 126
    · have c2' : m1 = 126 := UInt8.toNat_inj.mp c2
      rw [if_pos c2']
      simp only [if_pos c2]
      refine Reads.congr (p := fun bs => (takeN 2 bs).bind fun x => some (fromBigEndian x.1, x.2)) ?_ (fun bs => by
        cases takeN 2 bs <;> rfl)
      rw [P.bind_def]
      refine connReadExact_bind 2 st _ .len2Read trivial (p' := fun l r => some (fromBigEndian l, r)) ?_ ?_
      · intro bs hb
        match bs, hb with
        | [], _ => rfl
        | [_], _ => rfl
        | [_, _], hb => exact absurd rfl hb
        | _ :: _ :: _ :: _, _ => rfl
      · intro k sc bs hb
        match bs, hb with
        | [b0, b1], _ =>
          have h0 := u8_lt b0
          have h1 := u8_lt b1
          have hv : fromBigEndian [b0, b1] = (hton16 env.host (load16 env.host b0 b1)).toNat := by
            rw [hton16_load16]
            simp [fromBigEndian]
          refine Reads.pure _ _ ⟨?_, ?_⟩
          · rw [hv]; have := u16_lt (hton16 env.host (load16 env.host b0 b1)); omega
          · rw [hv, toInt64_small]
            have := u16_lt (hton16 env.host (load16 env.host b0 b1)); omega
    · have c2' : ¬ m1 = 126 := fun h => c2 (by rw [h]; rfl)
      rw [if_neg c2']
      simp only [if_neg c2]
      refine Reads.congr (p := fun bs => (takeN 8 bs).bind fun x => some (fromBigEndian x.1, x.2)) ?_ (fun bs => by
        cases takeN 8 bs <;> rfl)
      rw [P.bind_def]
      refine connReadExact_bind 8 st _ .len3Read trivial (p' := fun l r => some (fromBigEndian l, r)) ?_ ?_
      · intro bs hb
        match bs, hb with
        | [], _ => rfl
        | [_], _ => rfl
        | [_, _], _ => rfl
        | [_, _, _], _ => rfl
        | [_, _, _, _], _ => rfl
        | [_, _, _, _, _], _ => rfl
        | [_, _, _, _, _, _], _ => rfl
        | [_, _, _, _, _, _, _], _ => rfl
        | [_, _, _, _, _, _, _, _], hb => exact absurd rfl hb
        | _ :: _ :: _ :: _ :: _ :: _ :: _ :: _ :: _ :: _, _ => rfl
      · intro k sc bs hb
        match bs, hb with
        | [b0, b1, b2, b3, b4, b5, b6, b7], _ =>
          have hv : fromBigEndian [b0, b1, b2, b3, b4, b5, b6, b7]
              = (hton32 env.host (load32 env.host b0 b1 b2 b3)).toNat * 4294967296
                + (hton32 env.host (load32 env.host b4 b5 b6 b7)).toNat := by
            rw [hton32_load32, hton32_load32]
            simp only [fromBigEndian, List.foldl_cons, List.foldl_nil]
            omega
          refine Reads.pure _ _ ⟨?_, ?_⟩
          · rw [hv]
            have := u32_lt (hton32 env.host (load32 env.host b0 b1 b2 b3))
            have := u32_lt (hton32 env.host (load32 env.host b4 b5 b6 b7))
            omega
          · rw [hv]

/-- The model header `h` says what the RFC header `hd` says. -/
structure HdrOf (hd : Hdr) (h : Header) : Prop where
  fin : h.fin = hd.fin
  rsv1 : h.rsv1 = hd.rsv1
  rsv2 : h.rsv2 = hd.rsv2
  rsv3 : h.rsv3 = hd.rsv3
  opcode : h.opcode.toNat = hd.opcode
  opcode_lt : hd.opcode < 16
  key : h.key = hd.maskKey
  len : h.payloadLength = toInt64 hd.len
  len_lt : hd.len < 2 ^ 64

/-- The last part of `parseHdr`: key, and the result. -/
def hdrRest (b0 b1 : UInt8) (n : Nat) (r : List UInt8) : Option (Hdr × List UInt8) :=
  (parseKey (128 ≤ b1.toNat) r).bind fun z => some
    ({ fin := 128 ≤ b0.toNat
       rsv1 := b0.toNat / 64 % 2 = 1
       rsv2 := b0.toNat / 32 % 2 = 1
       rsv3 := b0.toNat / 16 % 2 = 1
       opcode := b0.toNat % 16
       maskKey := z.1
       len := n }, z.2)

theorem readFrameHeader_reads (env : Env) (h : Header) (st : St) :
    Reads st parseHdr HdrOf (readFrameHeader env h st) := by
  refine Reads.congr (p := fun bs => (takeN 2 bs).bind fun x =>
      (parseLength ((x.1.getD 1 0).toNat % 128) x.2).bind fun y =>
        hdrRest (x.1.getD 0 0) (x.1.getD 1 0) y.1 y.2) ?_ ?_
  · unfold readFrameHeader
    rw [P.bind_def]
    refine connReadExact_bind 2 st _ .headerRead trivial (p' := fun l r =>
      (parseLength ((l.getD 1 0).toNat % 128) r).bind fun y => hdrRest (l.getD 0 0) (l.getD 1 0) y.1 y.2) ?_ ?_
    · intro bs hb
      match bs, hb with
      | [], _ => rfl
      | [_], _ => rfl
      | [_, _], hb => exact absurd rfl hb
      | _ :: _ :: _ :: _, _ => rfl
    · intro k sc bs hb
      match bs, hb with
      | [b0, b1], _ =>
        have hb0 := u8_lt b0
        have hb1 := u8_lt b1
        have hu := unpackHeaderBits_eq (hton16 env.host (load16 env.host b0 b1)) h
        rw [hton16_load16] at hu
        have hW : 256 * b0.toNat + b1.toNat < 65536 := by omega
        have e1 : (256 * b0.toNat + b1.toNat) % 128 = b1.toNat % 128 := by omega
        have e2 : (256 * b0.toNat + b1.toNat) / 128 % 2 = 1 ↔ 128 ≤ b1.toNat := by omega
        have e3 : (256 * b0.toNat + b1.toNat) / 256 % 16 = b0.toNat % 16 := by omega
        have e4 : (256 * b0.toNat + b1.toNat) / 32768 % 2 = 1 ↔ 128 ≤ b0.toNat := by omega
        have e5 : (256 * b0.toNat + b1.toNat) / 16384 % 2 = b0.toNat / 64 % 2 := by omega
        have e6 : (256 * b0.toNat + b1.toNat) / 8192 % 2 = b0.toNat / 32 % 2 := by omega
        have e7 : (256 * b0.toNat + b1.toNat) / 4096 % 2 = b0.toNat / 16 % 2 := by omega
        simp only [e1, e2, e3, e4, e5, e6, e7] at hu
        simp only [hu, P.bind_def]
        have hm1 : (UInt8.ofNat (b1.toNat % 128)).toNat = b1.toNat % 128 := ofNat8 (by omega)
        have hop : (UInt8.ofNat (b0.toNat % 16)).toNat = b0.toNat % 16 := ofNat8 (by omega)
        have hrl := fun st => readLength_reads env (UInt8.ofNat (b1.toNat % 128)) (by omega) st
        rw [hm1] at hrl
        refine Reads.bind (hrl _) ?_
        rintro k' sc' n a ⟨hn, rfl⟩
        unfold hdrRest parseKey
        simp only [List.getD_cons_zero, List.getD_cons_succ]
        by_cases hmask : 128 ≤ b1.toNat
        · simp only [hmask, decide_true, if_true]
          refine Reads.congr (p := fun bs => (takeN 4 bs).bind fun x => some (
            ({ fin := decide (128 ≤ b0.toNat), rsv1 := decide (b0.toNat / 64 % 2 = 1),
                rsv2 := decide (b0.toNat / 32 % 2 = 1), rsv3 := decide (b0.toNat / 16 % 2 = 1), opcode := b0.toNat % 16,
                maskKey := some x.1, len := n } : Hdr), x.2)) ?_ (fun bs => by
            cases takeN 4 bs <;> rfl)
          refine connReadExact_bind 4 _ _ .maskRead trivial (p' := fun l r => some (
            ({ fin := decide (128 ≤ b0.toNat), rsv1 := decide (b0.toNat / 64 % 2 = 1),
                rsv2 := decide (b0.toNat / 32 % 2 = 1), rsv3 := decide (b0.toNat / 16 % 2 = 1), opcode := b0.toNat % 16,
                maskKey := some l, len := n } : Hdr), r)) ?_ ?_
          · intro bs hb
            match bs, hb with
            | [], _ => rfl
            | [_], _ => rfl
            | [_, _], _ => rfl
            | [_, _, _], _ => rfl
            | [_, _, _, _], hb => exact absurd rfl hb
            | _ :: _ :: _ :: _ :: _ :: _, _ => rfl
          · intro k sc bs hb
            match bs, hb with
            | [m0, m1, m2, m3], _ =>
              refine Reads.pure _ _ ?_
              constructor <;> simp [hop, Header.key, Mask.bytes, hn]
              omega
        · simp only [hmask, decide_false, Bool.false_eq_true, if_false, Option.bind_some]
          refine Reads.pure _ _ ?_
          constructor <;> simp [hop, Header.key, hn]
          omega
  · intro bs
    match bs with
    | [] => rfl
    | [_] => rfl
    | b0 :: b1 :: rest =>
      simp only [takeN, List.length_cons, parseHdr]
      rw [if_pos (by omega)]
      simp only [List.take_succ_cons, List.take_zero, List.drop_succ_cons, List.drop_zero, List.getD_cons_zero,
        List.getD_cons_succ, Option.bind_some, hdrRest]
      congr 1
      funext x
      cases parseKey (decide (128 ≤ b1.toNat)) x.2 <;> rfl

end OatWS
