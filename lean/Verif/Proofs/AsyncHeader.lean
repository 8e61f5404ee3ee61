import Verif.Proofs.AsyncUser
/-! Simulation of reading a header. -/

namespace OatWS.Async

theorem mirror_read (env : Env) (need : Nat) (hn : 0 < need) (mk : List UInt8 → Co) (rest : List Co) (l : Local)
    (cont : List UInt8 → World → Act × Local × World)
    (hstep : ∀ got w, coStep env (mk got) l w = readStep need got l w mk cont) (w : World) :
    Mirrors env (.run ⟨mk [] :: rest, l⟩, w) (connReadExact need w.st) (fun bs st' => ∃ g w', w'.st = st' ∧ st'.sock = w.st.sock ∧
      (bs.length = need → Leads env (.run ⟨mk [] :: rest, l⟩, w) (after (mk g) rest (cont bs w'))) ∧
      (bs.length ≠ need → Leads env (.run ⟨mk [] :: rest, l⟩, w) (after (mk g) rest (.error .io, l, w')))) := by
  have h := read_loop env need mk rest l cont hstep w.st.inp.sched w.st.inp.bytes [] w rfl hn
  have hx : connReadExact need w.st = match readExact w.st.inp.sched w.st.inp.bytes (need - ([] : List UInt8).length) [] with
      | (.got bs, inp') => (.ret bs, (w.setInp inp').st)
      | (.blocked, inp') => (.block, (w.setInp inp').st) := rfl
  rw [hx]
  revert h
  rcases readExact w.st.inp.sched w.st.inp.bytes (need - ([] : List UInt8).length) [] with ⟨(bs | _), inp⟩ <;> simp only []
  · split
    · rintro ⟨g, hg⟩; exact ⟨g, _, rfl, rfl, fun _ => hg, fun h => absurd ‹_› h⟩
    · rintro ⟨g, hg⟩; exact ⟨g, _, rfl, rfl, fun h => absurd h ‹_›, fun _ => hg⟩
  · rintro ⟨w', h1, rfl⟩
    exact ⟨_, h1, rfl⟩

/-- `ReadFrameCoroutine` at some function. -/
abbrev rf (pc : ReadFramePc) (t need : Nat) (got : List UInt8) : Co := .readFrame ⟨pc, t, need, got⟩

/-- `l` with another header. -/
abbrev Local.withHdr (l : Local) (h : Header) : Local := { l with hdr := h }

/-- The last part of `readFrameHeader`. -/
def maskTail (h : Header) : P St Header :=
  if h.hasMask = true then P.bind (connReadExact 4) (fun m => match m with
    | [m0, m1, m2, m3] => Pure.pure { h with mask := ⟨m0, m1, m2, m3⟩ }
    | _ => P.fail .maskRead)
  else Pure.pure h

theorem readFrameHeader_eq (env : Env) (h : Header) : readFrameHeader env h = P.bind (connReadExact 2) (fun bs => match bs with
    | [b0, b1] => P.bind (readLength env (unpackHeaderBits (hton16 env.host (load16 env.host b0 b1)) h).2)
        (fun len => maskTail { (unpackHeaderBits (hton16 env.host (load16 env.host b0 b1)) h).1 with payloadLength := len })
    | _ => P.fail .headerRead) := rfl

theorem mirror_mask (env : Env) (c : Co) (t : Nat) (rest : List Co) (hr : NoCatch rest) (l l' : Local) (w : World) (h : Header)
    (hd : ∀ w, destroy c w = w)
    (hco : coStep env c l' w = if h.hasMask then (.goto (rf .readMask t 4 []), l.withHdr h, w) else (.finish, l.withHdr h, w)) :
    Mirrors env (.run ⟨c :: rest, l'⟩, w) (maskTail h w.st)
      (fun h st' => ∃ w', Leads env (.run ⟨c :: rest, l'⟩, w) (.run ⟨rest, l.withHdr h⟩, w') ∧ w'.st = st' ∧
        st'.sock = w.st.sock) := by
  unfold maskTail
  by_cases hm : h.hasMask = true
  · rw [if_pos hm] at hco ⊢
    have hl : Leads env (.run ⟨c :: rest, l'⟩, w) (.run ⟨rf .readMask t 4 [] :: rest, l.withHdr h⟩, w) := by
      refine leads_co ?_
      rw [hco]
      exact Leads.refl
    refine Mirrors.leads hl ?_
    refine Mirrors.bind (mirror_read env 4 (by omega) (fun g => rf .readMask t 4 g) rest _
      (fun g w => match g with
        | [m0, m1, m2, m3] => (.finish, l.withHdr { h with mask := ⟨m0, m1, m2, m3⟩ }, w)
        | _ => (.error .io, l.withHdr h, w)) (fun _ _ => rfl) w) ?_
    rintro bs _ ⟨g, w', rfl, hs, h1, h2⟩
    by_cases hb : bs.length = 4
    · obtain ⟨m0, m1, m2, m3, rfl⟩ : ∃ m0 m1 m2 m3, bs = [m0, m1, m2, m3] := by
        match bs, hb with
        | [m0, m1, m2, m3], _ => exact ⟨m0, m1, m2, m3, rfl⟩
      exact ⟨w', hl.trans ((h1 rfl).trans (leads_finish env _ rest _ w')), rfl, hs⟩
    · split
      · exact absurd rfl hb
      · exact Mirrors.leads (h2 hb) (mirrors_error hr (.io rfl))
  · rw [if_neg hm] at hco ⊢
    refine ⟨w, leads_co ?_, rfl, rfl⟩
    rw [hco]
    have := leads_finish env c rest (l.withHdr h) w
    rw [hd] at this
    exact this

/-- After the length was read. -/
def lenDone (t : Nat) (h : Header) (len : Int) (l : Local) (w : World) : Act × Local × World :=
  if h.hasMask then (.goto (rf .readMask t 4 []), l.withHdr { h with payloadLength := len }, w)
  else (.finish, l.withHdr { h with payloadLength := len }, w)

theorem onLen_one (env : Env) (l : Local) (h : Header) (len : Int) (got : List UInt8) (w : World) :
    coStep env (rf .onLenRead 1 2 got) (l.withHdr { h with payloadLength := len }) w = lenDone 1 h len l w := by
  have : decodedLength env 1 got len = len := by unfold decodedLength; rw [if_neg (by omega), if_neg (by omega)]
  simp only [coStep, readFrameStep, lenDone, this]

theorem onLen_two (env : Env) (l : Local) (h : Header) (b0 b1 : UInt8) (w : World) :
    coStep env (rf .onLenRead 2 2 [b0, b1]) (l.withHdr h) w = lenDone 2 h (hton16 env.host (load16 env.host b0 b1)).toNat l w := by
  have : decodedLength env 2 [b0, b1] h.payloadLength = (hton16 env.host (load16 env.host b0 b1)).toNat := by
    unfold decodedLength; exact if_pos rfl
  simp only [coStep, readFrameStep, lenDone, this]

theorem decodedLength_three (env : Env) (b0 b1 b2 b3 b4 b5 b6 b7 : UInt8) (old : Int) :
    decodedLength env 3 [b0, b1, b2, b3, b4, b5, b6, b7] old
      = toInt64 ((hton32 env.host (load32 env.host b0 b1 b2 b3)).toNat * 4294967296
        + (hton32 env.host (load32 env.host b4 b5 b6 b7)).toNat) := by
  unfold decodedLength
  rw [if_neg (by decide), if_pos (by decide)]

theorem onLen_any (env : Env) (l : Local) (h : Header) (t need : Nat) (got : List UInt8) (w : World) :
    coStep env (rf .onLenRead t need got) (l.withHdr h) w = lenDone t h (decodedLength env t got h.payloadLength) l w := by
  simp only [coStep, readFrameStep, lenDone]

theorem onLen_three (env : Env) (l : Local) (h : Header) (b0 b1 b2 b3 b4 b5 b6 b7 : UInt8) (w : World) :
    coStep env (rf .onLenRead 3 8 [b0, b1, b2, b3, b4, b5, b6, b7]) (l.withHdr h) w = lenDone 3 h
      (toInt64 ((hton32 env.host (load32 env.host b0 b1 b2 b3)).toNat * 4294967296
        + (hton32 env.host (load32 env.host b4 b5 b6 b7)).toNat)) l w := by
  rw [onLen_any, decodedLength_three]

/-- The length. -/
theorem mirror_length (env : Env) (b0 b1 : UInt8) (h : Header) (m1 : UInt8) (rest : List Co) (hr : NoCatch rest) (l : Local)
    (w : World) (hu : unpackHeaderBits (hton16 env.host (load16 env.host b0 b1)) l.hdr = (h, m1)) :
    Mirrors env (.run ⟨rf .onBbRead 0 2 [b0, b1] :: rest, l⟩, w) (readLength env m1 w.st) (fun len st' => ∃ t need got l' w',
      Leads env (.run ⟨rf .onBbRead 0 2 [b0, b1] :: rest, l⟩, w) (.run ⟨rf .onLenRead t need got :: rest, l'⟩, w') ∧
      w'.st = st' ∧ st'.sock = w.st.sock ∧ ∀ w, coStep env (rf .onLenRead t need got) l' w = lenDone t h len l w) := by
  unfold readLength
  by_cases hlt : m1 < 126
  · rw [if_pos hlt]
    refine ⟨1, 2, [b0, b1], l.withHdr { h with payloadLength := m1.toNat }, w, ?_, rfl, rfl, fun w => onLen_one ..⟩
    refine leads_co ?_
    simp only [coStep, readFrameStep, hu, if_pos hlt]
    exact Leads.refl
  · rw [if_neg hlt]
    by_cases he : m1 = 126
    · rw [if_pos he]
      have hl : Leads env (.run ⟨rf .onBbRead 0 2 [b0, b1] :: rest, l⟩, w) (.run ⟨rf .readLen 2 2 [] :: rest, l.withHdr h⟩, w) := by
        refine leads_co ?_
        simp only [coStep, readFrameStep, hu, if_neg hlt, if_pos he]
        exact Leads.refl
      refine Mirrors.leads hl ?_
      simp only [P.bind_def]
      refine Mirrors.bind (mirror_read env 2 (by omega) (fun g => rf .readLen 2 2 g) rest _
        (fun g w => (.goto (rf .onLenRead 2 2 g), l.withHdr h, w)) (fun _ _ => rfl) w) ?_
      rintro bs _ ⟨g, w1, rfl, hs1, h1, h2⟩
      by_cases hb : bs.length = 2
      · obtain ⟨c0, c1, rfl⟩ : ∃ b0 b1, bs = [b0, b1] := by
          match bs, hb with
          | [b0, b1], _ => exact ⟨b0, b1, rfl⟩
        exact ⟨2, 2, [c0, c1], l.withHdr h, w1, hl.trans (h1 rfl), rfl, hs1, fun w => onLen_two ..⟩
      · split
        · exact absurd rfl hb
        · exact Mirrors.leads (h2 hb) (mirrors_error hr (.io rfl))
    · rw [if_neg he]
      have hl : Leads env (.run ⟨rf .onBbRead 0 2 [b0, b1] :: rest, l⟩, w) (.run ⟨rf .readLen 3 8 [] :: rest, l.withHdr h⟩, w) := by
        refine leads_co ?_
        simp only [coStep, readFrameStep, hu, if_neg hlt, if_neg he]
        exact Leads.refl
      refine Mirrors.leads hl ?_
      simp only [P.bind_def]
      refine Mirrors.bind (mirror_read env 8 (by omega) (fun g => rf .readLen 3 8 g) rest _
        (fun g w => (.goto (rf .onLenRead 3 8 g), l.withHdr h, w)) (fun _ _ => rfl) w) ?_
      rintro bs _ ⟨g, w1, rfl, hs1, h1, h2⟩
      by_cases hb : bs.length = 8
      · obtain ⟨c0, c1, c2, c3, c4, c5, c6, c7, rfl⟩ : ∃ c0 c1 c2 c3 c4 c5 c6 c7, bs = [c0, c1, c2, c3, c4, c5, c6, c7] := by
          match bs, hb with
          | [c0, c1, c2, c3, c4, c5, c6, c7], _ => exact ⟨_, _, _, _, _, _, _, _, rfl⟩
        exact ⟨3, 8, [c0, c1, c2, c3, c4, c5, c6, c7], l.withHdr h, w1, hl.trans (h1 rfl), rfl, hs1, fun w => onLen_three ..⟩
      · split
        · exact absurd rfl hb
        · exact Mirrors.leads (h2 hb) (mirrors_error hr (.io rfl))

theorem mirror_readFrame (env : Env) (rest : List Co) (hr : NoCatch rest) (l : Local) (w : World) :
    Mirrors env (.run ⟨.readFrame {} :: rest, l⟩, w) (readFrameHeader env l.hdr w.st) (fun h st' => ∃ w',
      Leads env (.run ⟨.readFrame {} :: rest, l⟩, w) (.run ⟨rest, l.withHdr h⟩, w') ∧ w'.st = st' ∧ st'.sock = w.st.sock) := by
  rw [readFrameHeader_eq]
  refine Mirrors.bind (mirror_read env 2 (by omega) (fun g => rf .act 0 2 g) rest l
    (fun g w => (.goto (rf .onBbRead 0 2 g), l, w)) (fun _ _ => rfl) w) ?_
  rintro bs _ ⟨g, w1, rfl, hs1, h1, h2⟩
  by_cases hb : bs.length = 2
  case neg =>
    split
    · exact absurd rfl hb
    · exact Mirrors.leads (h2 hb) (mirrors_error hr (.io rfl))
  obtain ⟨b0, b1, rfl⟩ : ∃ b0 b1, bs = [b0, b1] := by
    match bs, hb with
    | [b0, b1], _ => exact ⟨b0, b1, rfl⟩
  replace h1 := h1 rfl
  simp only [after] at h1
  simp only []
  refine Mirrors.leads h1 ?_
  refine Mirrors.bind (mirror_length env b0 b1 _ _ rest hr l w1 rfl) ?_
  rintro len _ ⟨t, need, got, l', w2, h3, rfl, hs2, hco⟩
  refine Mirrors.leads h3 (Mirrors.mono (mirror_mask env _ t rest hr l l' w2 _ (fun _ => rfl) (hco w2)) ?_)
  rintro h _ ⟨w', h4, h5, h6⟩
  exact ⟨w', h1.trans (h3.trans h4), h5, h6.trans (hs2.trans hs1)⟩

end OatWS.Async
