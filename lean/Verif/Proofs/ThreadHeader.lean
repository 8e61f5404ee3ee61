import Verif.Proofs.ThreadWp
/-! Reading a frame header, while other threads do things in between. -/

namespace OatWS.Threads
open RFC6455 Async Prog

/-- Where a reader is that parses a prefix of the input. -/
def ReadPost {α β : Type} (C : Rules) (v : View) (parse : List UInt8 → Option (β × List UInt8)) (good : β → α → Prop) (x : Out α) (w : View) : Prop :=
  (∃ k b a, After v k [] w ∧ w.last = v.last ∧ x = .ret a ∧ (∀ tail, parse (v.bytes.take k ++ tail) = some (b, tail)) ∧ good b a) ∨
  (∃ k, After v k [] w ∧ w.last = v.last ∧ (x = .reading ∨ ∃ e, e.isRead ∧ x = .throw e ∧ (C.Fine → k = v.bytes.length)) ∧
    parse (v.bytes.take k) = none)

/-- `p` is such a reader. -/
def ReadsT {α β : Type} (C : Rules) (v : View) (parse : List UInt8 → Option (β × List UInt8)) (good : β → α → Prop) (p : Prog α) : Prop :=
  Wp C p v (ReadPost C v parse good)

theorem ReadsT.ret {α β : Type} {C : Rules} {v : View} {good : β → α → Prop} (b : β) (a : α) (h : good b a) :
    ReadsT C v (fun bs => some (b, bs)) good (.ret a : Prog α) :=
  .inl ⟨0, b, a, .refl v, rfl, rfl, by simp, h⟩

theorem ReadsT.congr {α β : Type} {C : Rules} {v : View} {p p' : List UInt8 → Option (β × List UInt8)} {good : β → α → Prop} {r : Prog α}
    (h : ReadsT C v p good r) (hp : ∀ bs, p bs = p' bs) : ReadsT C v p' good r := by
  have : p = p' := funext hp
  rw [← this]; exact h

theorem ReadsT.andThen {α α' β β' : Type} {C : Rules} {v : View} {m : Prog α} {f : α → Prog α'} {p good}
    {p' : β → List UInt8 → Option (β' × List UInt8)} {good' : β' → α' → Prop}
    (h1 : ReadsT C v p good m) (h2 : ∀ w b a, good b a → ReadsT C w (p' b) good' (f a)) :
    ReadsT C v (fun bs => (p bs).bind fun x => p' x.1 x.2) good' (Prog.andThen m f) := by
  refine Wp.andThen (Wp.mono h1 ?_)
  rintro x w (⟨k, b, a, ha, hl, rfl, hp, hg⟩ | ⟨k, ha, hl, hx, hp⟩)
  · refine Wp.mono (h2 w b a hg) ?_
    rintro y u (⟨k', b', a', ha', hl', rfl, hp', hg'⟩ | ⟨k', ha', hl', hx, hp'⟩)
    · refine .inl ⟨k + k', b', a', ?_, hl'.trans hl, rfl, fun tail => ?_, hg'⟩
      · have := ha.trans ha'; rwa [List.append_nil] at this
      · dsimp only
        rw [List.take_add, List.append_assoc, hp, ← ha.bytes]
        exact hp' tail
    · refine .inr ⟨k + k', ?_, hl'.trans hl, ?_, ?_⟩
      · have := ha.trans ha'; rwa [List.append_nil] at this
      · rcases hx with hx | ⟨e, he, hx, hf⟩
        · exact .inl hx
        · refine .inr ⟨e, he, hx, fun h => ?_⟩
          have := hf h
          have := ha.length
          have := ha.le
          omega
      · dsimp only
        rw [List.take_add, hp, ← ha.bytes]
        exact hp'
  · have hp' : ((p (v.bytes.take k)).bind fun x => p' x.1 x.2) = none := by rw [hp]; rfl
    rcases hx with rfl | ⟨e, he, rfl, hf⟩
    · exact .inr ⟨k, ha, hl, .inl rfl, hp'⟩
    · exact .inr ⟨k, ha, hl, .inr ⟨e, he, rfl, hf⟩, hp'⟩

/-- Outcome of an exact read. -/
theorem readExactT_wp (C : Rules) (fuel need : Nat) (acc : List UInt8) (v : View) :
    Wp C (readExactT fuel need acc) v fun x w => ∃ k, After v k [] w ∧ w.last = v.last ∧ k ≤ need ∧
      ((x = .ret (acc ++ v.bytes.take k) ∧ (k < need → C.Fine → k = v.bytes.length)) ∨ (x = .reading ∧ k < need)) := by
  induction fuel generalizing need acc v with
  | zero =>
    cases need with
    | zero => exact ⟨0, .refl v, rfl, by omega, .inl ⟨by simp, by omega⟩⟩
    | succ need => trivial
  | succ fuel ih =>
    cases need with
    | zero => exact ⟨0, .refl v, rfl, by omega, .inl ⟨by simp, by omega⟩⟩
    | succ need =>
      refine ⟨trivial, fun _ => ⟨0, .refl v, rfl, by omega, .inr ⟨rfl, by omega⟩⟩, (fun ⟨_, e⟩ => by cases e), ?_⟩
      rintro u hu r v' ⟨o, ho, hr, hv'⟩
      obtain ⟨hau, hlu⟩ := After.or hu
      have hub : u.bytes = v.bytes := by rcases hu with rfl | rfl <;> rfl
      rw [hub] at hr
      have hl' : v'.last = v.last := by rw [hv']; exact hlu
      have h0 : v'.bytes = v.bytes → After v 0 [] v' := by
        intro hb
        have : v' = u := by rw [hv', hb, ← hub]
        rw [this]; exact hau
      cases r with
      | data bs =>
        obtain ⟨n, rfl, hbs, hb', hpos, hle, hle'⟩ := lowRead_data hr
        have hav : After v bs.length [] v' := by
          refine ⟨hle', hb', ?_, ?_⟩
          · rw [hv']; exact hau.trace
          · rw [hv']; exact hau.off
        refine Wp.mono (ih (need + 1 - bs.length) (acc ++ bs) v') ?_
        rintro x w ⟨k, ha, hl, hk, hx⟩
        have hlen := hav.length
        refine ⟨bs.length + k, (by have := hav.trans ha; rwa [List.append_nil] at this), hl.trans hl', by omega, ?_⟩
        rcases hx with ⟨hx, hf⟩ | ⟨hx, hk'⟩
        · refine .inl ⟨?_, fun h1 h2 => ?_⟩
          · rw [hx, List.append_assoc, List.take_add, ← hb', ← hbs]
          · have := hf (by omega) h2
            omega
        · exact .inr ⟨hx, by omega⟩
      | retry =>
        have hb' := lowRead_other hr (by simp)
        have hav := h0 hb'
        refine Wp.mono (ih (need + 1) acc v') ?_
        rintro x w ⟨k, ha, hl, hk, hx⟩
        rw [hb'] at hx
        exact ⟨k, hav.zero ha, hl.trans hl', hk, hx⟩
      | zero =>
        have hb' := lowRead_other hr (by simp)
        refine ⟨0, h0 hb', hl', by omega, .inl ⟨by simp, fun _ hf => ?_⟩⟩
        rw [lowRead_zero hr (hf o ho) (by omega)]; rfl
      | broken =>
        have hb' := lowRead_other hr (by simp)
        refine ⟨0, h0 hb', hl', by omega, .inl ⟨by simp, fun _ hf => ?_⟩⟩
        have := lowRead_broken hr
        rw [hf o ho] at this
        cases this

/-- `match ← readExact n with | <n bytes> => ... | _ => throw`, continued by a reader. -/
theorem readExactT_bind {α β : Type} (C : Rules) (fuel n : Nat) (v : View) (f : List UInt8 → Prog α)
    (e : Err) (he : e.isRead) (hf : ∀ bs, bs.length ≠ n → f bs = .throw e)
    {p' : List UInt8 → List UInt8 → Option (β × List UInt8)} {good : β → α → Prop}
    (h2 : ∀ w bs, bs.length = n → ReadsT C w (p' bs) good (f bs)) :
    ReadsT C v (fun bs => (takeN n bs).bind fun x => p' x.1 x.2) good (Prog.andThen (readExactT fuel n []) f) := by
  refine Wp.andThen (Wp.mono (readExactT_wp C fuel n [] v) ?_)
  rintro x w ⟨k, ha, hl, hk, ⟨rfl, hfin⟩ | ⟨rfl, hk'⟩⟩
  · have hle := ha.le
    have hlen : (v.bytes.take k).length = k := by rw [List.length_take]; omega
    show Wp C (f ([] ++ v.bytes.take k)) w _
    rw [List.nil_append]
    by_cases hkn : k = n
    · subst hkn
      refine Wp.mono (h2 w (v.bytes.take k) hlen) ?_
      rintro y u (⟨k', b', a', ha', hl', rfl, hp', hg'⟩ | ⟨k', ha', hl', hx, hp'⟩)
      · refine .inl ⟨k + k', b', a', (by have := ha.trans ha'; rwa [List.append_nil] at this), hl'.trans hl, rfl, fun tail => ?_, hg'⟩
        dsimp only
        rw [List.take_add, List.append_assoc, take_self_append hlen, ← ha.bytes]
        exact hp' tail
      · refine .inr ⟨k + k', (by have := ha.trans ha'; rwa [List.append_nil] at this), hl'.trans hl, ?_, ?_⟩
        · rcases hx with hx | ⟨e, he, hx, hf⟩
          · exact .inl hx
          · refine .inr ⟨e, he, hx, fun h => ?_⟩
            have := hf h
            have := ha.length
            omega
        · dsimp only
          rw [List.take_add, take_self_append hlen, ← ha.bytes]
          exact hp'
    · rw [hf _ (by omega)]
      refine .inr ⟨k, ha, hl, .inr ⟨e, he, rfl, hfin (by omega)⟩, ?_⟩
      dsimp only
      rw [takeN, if_neg (by omega)]; rfl
  · refine .inr ⟨k, ha, hl, .inl rfl, ?_⟩
    have hle := ha.le
    dsimp only
    rw [takeN, if_neg (by rw [List.length_take]; omega)]; rfl

theorem readLengthT_reads (C : Rules) (env : Env) (fuel : Nat) (m1 : UInt8) (hm : m1.toNat < 128) (v : View) :
    ReadsT C v (parseLength m1.toNat) (fun n a => n < 2 ^ 64 ∧ a = toInt64 n) (readLengthT env fuel m1) := by
  unfold readLengthT parseLength
  by_cases c1 : m1.toNat ≤ 125
  · have c1' : m1 < 126 := by rw [UInt8.lt_iff_toNat_lt]; exact Nat.lt_succ_of_le c1
    rw [if_pos c1']
    simp only [if_pos c1]
    refine ReadsT.ret _ _ ⟨by omega, ?_⟩
    rw [toInt64_small (by omega)]
  · have c1' : ¬ m1 < 126 := by rw [UInt8.lt_iff_toNat_lt]; exact fun h => c1 (Nat.le_of_lt_succ h)
    rw [if_neg c1']
    simp only [if_neg c1]
    by_cases c2 : m1.toNat = 126
    · have c2' : m1 = 126 := UInt8.toNat_inj.mp c2
      rw [if_pos c2']
      simp only [if_pos c2]
      refine ReadsT.congr (p := fun bs => (takeN 2 bs).bind fun x => some (fromBigEndian x.1, x.2)) ?_ (fun bs => by
        cases takeN 2 bs <;> rfl)
      refine readExactT_bind C fuel 2 v _ .len2Read trivial (p' := fun l r => some (fromBigEndian l, r)) ?_ ?_
      · intro bs hb
        match bs, hb with
        | [], _ => rfl
        | [_], _ => rfl
        | [_, _], hb => exact absurd rfl hb
        | _ :: _ :: _ :: _, _ => rfl
      · intro w bs hb
        match bs, hb with
        | [b0, b1], _ =>
          have h0 := u8_lt b0
          have h1 := u8_lt b1
          have hv : fromBigEndian [b0, b1] = (hton16 env.host (load16 env.host b0 b1)).toNat := by
            rw [hton16_load16]
            simp [fromBigEndian]
          refine ReadsT.ret _ _ ⟨?_, ?_⟩
          · rw [hv]; have := u16_lt (hton16 env.host (load16 env.host b0 b1)); omega
          · rw [hv, toInt64_small]
            have := u16_lt (hton16 env.host (load16 env.host b0 b1)); omega
    · have c2' : ¬ m1 = 126 := fun h => c2 (by rw [h]; rfl)
      rw [if_neg c2']
      simp only [if_neg c2]
      refine ReadsT.congr (p := fun bs => (takeN 8 bs).bind fun x => some (fromBigEndian x.1, x.2)) ?_ (fun bs => by
        cases takeN 8 bs <;> rfl)
      refine readExactT_bind C fuel 8 v _ .len3Read trivial (p' := fun l r => some (fromBigEndian l, r)) ?_ ?_
      · intro bs hb
        match bs, hb with
        | [], _ => rfl
        | [_], _ => rfl
        | [_, _], _ => rfl
        | [_, _, _], _ => rfl
        | [_, _, _, _], _ => rfl
        | [_, _, _, _, _], _ => rfl
        | [_, _, _, _, _, _], _ => rfl
        | [_, _, _, _, _, _, _], _ => rfl
        | [_, _, _, _, _, _, _, _], hb => exact absurd rfl hb
        | _ :: _ :: _ :: _ :: _ :: _ :: _ :: _ :: _ :: _, _ => rfl
      · intro w bs hb
        match bs, hb with
        | [b0, b1, b2, b3, b4, b5, b6, b7], _ =>
          have hv : fromBigEndian [b0, b1, b2, b3, b4, b5, b6, b7]
              = (hton32 env.host (load32 env.host b0 b1 b2 b3)).toNat * 4294967296
                + (hton32 env.host (load32 env.host b4 b5 b6 b7)).toNat := by
            rw [hton32_load32, hton32_load32]
            simp only [fromBigEndian, List.foldl_cons, List.foldl_nil]
            omega
          refine ReadsT.ret _ _ ⟨?_, ?_⟩
          · rw [hv]
            have := u32_lt (hton32 env.host (load32 env.host b0 b1 b2 b3))
            have := u32_lt (hton32 env.host (load32 env.host b4 b5 b6 b7))
            omega
          · rw [hv]

theorem readFrameHeaderT_reads (C : Rules) (env : Env) (fuel : Nat) (h : Header) (v : View) :
    ReadsT C v parseHdr HdrOf (readFrameHeaderT env fuel h) := by
  refine ReadsT.congr (p := fun bs => (takeN 2 bs).bind fun x =>
      (parseLength ((x.1.getD 1 0).toNat % 128) x.2).bind fun y =>
        hdrRest (x.1.getD 0 0) (x.1.getD 1 0) y.1 y.2) ?_ ?_
  · unfold readFrameHeaderT
    refine readExactT_bind C fuel 2 v _ .headerRead trivial (p' := fun l r =>
      (parseLength ((l.getD 1 0).toNat % 128) r).bind fun y => hdrRest (l.getD 0 0) (l.getD 1 0) y.1 y.2) ?_ ?_
    · intro bs hb
      match bs, hb with
      | [], _ => rfl
      | [_], _ => rfl
      | [_, _], hb => exact absurd rfl hb
      | _ :: _ :: _ :: _, _ => rfl
    · intro w bs hb
      match bs, hb with
      | [b0, b1], _ =>
        have hb0 := u8_lt b0
        have hb1 := u8_lt b1
        have hu := unpackHeaderBits_eq (hton16 env.host (load16 env.host b0 b1)) h
        rw [hton16_load16] at hu
        have hW : 256 * b0.toNat + b1.toNat < 65536 := by omega
        have e1 : (256 * b0.toNat + b1.toNat) % 128 = b1.toNat % 128 := by omega
        have e2 : (256 * b0.toNat + b1.toNat) / 128 % 2 = 1 ↔ 128 ≤ b1.toNat := by omega
        have e3 : (256 * b0.toNat + b1.toNat) / 256 % 16 = b0.toNat % 16 := by omega
        have e4 : (256 * b0.toNat + b1.toNat) / 32768 % 2 = 1 ↔ 128 ≤ b0.toNat := by omega
        have e5 : (256 * b0.toNat + b1.toNat) / 16384 % 2 = b0.toNat / 64 % 2 := by omega
        have e6 : (256 * b0.toNat + b1.toNat) / 8192 % 2 = b0.toNat / 32 % 2 := by omega
        have e7 : (256 * b0.toNat + b1.toNat) / 4096 % 2 = b0.toNat / 16 % 2 := by omega
        simp only [e1, e2, e3, e4, e5, e6, e7] at hu
        simp only [hu]
        have hm1 : (UInt8.ofNat (b1.toNat % 128)).toNat = b1.toNat % 128 := ofNat8 (by omega)
        have hop : (UInt8.ofNat (b0.toNat % 16)).toNat = b0.toNat % 16 := ofNat8 (by omega)
        have hrl := fun v => readLengthT_reads C env fuel (UInt8.ofNat (b1.toNat % 128)) (by omega) v
        rw [hm1] at hrl
        refine ReadsT.andThen (hrl _) ?_
        rintro w' n a ⟨hn, rfl⟩
        unfold hdrRest parseKey
        simp only [List.getD_cons_zero, List.getD_cons_succ]
        by_cases hmask : 128 ≤ b1.toNat
        · simp only [hmask, decide_true, if_true]
          refine ReadsT.congr (p := fun bs => (takeN 4 bs).bind fun x => some (
            ({ fin := decide (128 ≤ b0.toNat), rsv1 := decide (b0.toNat / 64 % 2 = 1),
                rsv2 := decide (b0.toNat / 32 % 2 = 1), rsv3 := decide (b0.toNat / 16 % 2 = 1), opcode := b0.toNat % 16,
                maskKey := some x.1, len := n } : Hdr), x.2)) ?_ (fun bs => by
            cases takeN 4 bs <;> rfl)
          refine readExactT_bind C fuel 4 _ _ .maskRead trivial (p' := fun l r => some (
            ({ fin := decide (128 ≤ b0.toNat), rsv1 := decide (b0.toNat / 64 % 2 = 1),
                rsv2 := decide (b0.toNat / 32 % 2 = 1), rsv3 := decide (b0.toNat / 16 % 2 = 1), opcode := b0.toNat % 16,
                maskKey := some l, len := n } : Hdr), r)) ?_ ?_
          · intro bs hb
            match bs, hb with
            | [], _ => rfl
            | [_], _ => rfl
            | [_, _], _ => rfl
            | [_, _, _], _ => rfl
            | [_, _, _, _], hb => exact absurd rfl hb
            | _ :: _ :: _ :: _ :: _ :: _, _ => rfl
          · intro w2 bs hb
            match bs, hb with
            | [m0, m1, m2, m3], _ =>
              refine ReadsT.ret _ _ ?_
              constructor <;> simp [hop, Header.key, Mask.bytes, hn]
              omega
        · simp only [hmask, decide_false, Bool.false_eq_true, if_false, Option.bind_some]
          refine ReadsT.ret _ _ ?_
          constructor <;> simp [hop, Header.key, hn]
          omega
  · intro bs
    match bs with
    | [] => rfl
    | [_] => rfl
    | b0 :: b1 :: rest =>
      simp only [takeN, List.length_cons, parseHdr]
      rw [if_pos (by omega)]
      simp only [List.take_succ_cons, List.take_zero, List.drop_succ_cons, List.drop_zero, List.getD_cons_zero,
        List.getD_cons_succ, Option.bind_some, hdrRest]
      congr 1
      funext x
      cases parseKey (decide (128 ≤ b1.toNat)) x.2 <;> rfl

end OatWS.Threads
