import Verif.Proofs.Link
import Verif.Spec.Network
import Verif.Props.ThreadListen
import Verif.Props.Truncate
/-! # C63: two connected endpoints, each used by several threads -/

namespace OatWS.Threads
open RFC6455 Async Prog

theorem _root_.OatWS.Receives.nil {o ds r} (h : Receives o [] ds r) : ds = [] ∧ r = .incomplete := by
  generalize hz : ([] : List UInt8) = z at h
  cases h with
  | last h => subst hz; exact ⟨(oneFrame_nil h).1, FrameEnd.over.inj (oneFrame_nil h).2⟩
  | stop h => subst hz; have := (oneFrame_nil h).2; cases this
  | more h _ =>
    have := (List.append_eq_nil_iff.mp hz.symm).1
    subst this
    have := (oneFrame_nil h).2
    cases this

/-- Having received all of a sequence of acceptable frames that ends with a close, one does not go on. -/
theorem _root_.OatWS.Receives.whole_close {o fs o' ds f} (h : Receives o (wireOf (fs ++ [f])) ds .incomplete) (ha : AcceptedAll o fs o') (hv : f.Valid)
    (hacc : Accepted o' f) (h8 : f.opcode = 8) : False := by
  have hw : wireOf (fs ++ [f]) = wireOf fs ++ f.encode := by rw [wireOf_append]; simp [wireOf]
  rw [hw] at h
  obtain ⟨bs', ds', e, -, h', -, e2⟩ := Receives.frames (tail := f.encode) ha h List.prefix_rfl trivial (fun _ => rfl)
  have e2 := e2 rfl
  subst e2
  generalize hz : f.encode = z at h'
  cases h' with
  | last h1 =>
    rcases oneFrame_prefix (rest := []) h1 (by rw [List.append_nil, hz]; exact List.prefix_rfl) hv hacc nofun with ⟨_, _, e⟩ | ⟨_, e, _⟩
    · rw [if_pos h8] at e; cases e
    · rw [hz] at e; omega
  | more h1 _ =>
    rcases oneFrame_prefix (rest := []) h1 (by rw [List.append_nil, hz]; exact List.prefix_append _ _) hv hacc nofun with ⟨_, _, e⟩ | ⟨e, _⟩
    · rw [if_pos h8] at e; cases e
    · cases e

/-- Why receiving a part of a sequence of acceptable frames ends. -/
theorem _root_.OatWS.Receives.prefix_reason {o fs o' bs ds r f} (h : Receives o bs ds r) (ha : AcceptedAll o fs o') (hv : f.Valid)
    (hacc : Accepted o' f) (hpre : bs <+: wireOf (fs ++ [f])) (hr : r ≠ .interrupted) :
    r = .incomplete ∨ r = .stopped ∨ (r = .closed ∧ f.opcode = 8 ∧ bs = wireOf (fs ++ [f])) := by
  have hover : ∀ {r : Reason}, r ≠ .interrupted → FrameEnd.over r ≠ .over .interrupted := by
    intro r hr e; injection e with e; exact hr e
  induction ha generalizing bs ds with
  | nil =>
    have hw : wireOf ([] ++ [f]) = f.encode := by simp [wireOf]
    have hpre0 := hpre
    rw [hw, ← List.append_nil f.encode] at hpre0
    cases h with
    | last h1 =>
      rcases oneFrame_prefix h1 hpre0 hv hacc (hover hr) with ⟨rfl, _, e⟩ | ⟨e, _⟩
      · split at e
        · rename_i h8
          injection e with e
          exact .inr (.inr ⟨e, h8, hw.symm⟩)
        · cases e
      · injection e with e
        exact .inl e
    | stop h1 => exact .inr (.inl rfl)
    | more h1 h2 =>
      rcases oneFrame_prefix h1 (List.IsPrefix.trans (List.prefix_append _ _) hpre0) hv hacc nofun with ⟨rfl, _, e⟩ | ⟨e, _⟩
      · rw [hw] at hpre
        have hlen := hpre.length_le
        rw [List.length_append] at hlen
        rename_i _ bs' ds' _
        have : bs' = [] := List.length_eq_zero_iff.mp (by omega)
        subst this
        exact .inl h2.nil.2
      · cases e
  | @cons o g fs o' hgv hgacc h8 ha' ih =>
    rw [List.cons_append, wireOf_cons] at hpre ⊢
    cases h with
    | last h1 =>
      rcases oneFrame_prefix h1 hpre hgv hgacc (hover hr) with ⟨rfl, _, e⟩ | ⟨e, _⟩
      · rw [if_neg h8] at e; cases e
      · injection e with e
        exact .inl e
    | stop h1 => exact .inr (.inl rfl)
    | more h1 h2 =>
      rcases oneFrame_prefix h1 (List.IsPrefix.trans (List.prefix_append _ _) hpre) hgv hgacc nofun with ⟨rfl, _, e3⟩ | ⟨e, _⟩
      · rw [if_neg h8] at e3
        injection e3 with e3
        subst e3
        rcases ih h2 hacc ((List.prefix_append_right_inj _).mp hpre) with h | h | ⟨h, h', h''⟩
        · exact .inl h
        · exact .inr (.inl h)
        · exact .inr (.inr ⟨h, h', by rw [h'']⟩)
      · cases e

/-- The callbacks for the frame say the message of the call. -/
def Says (c : SendCall) (f : Frame) : Prop :=
  ∀ l B e rest, FrameEvents l B f e → reassemble [] (e ++ rest) = (c.msg :: (reassemble [] rest).1, (reassemble [] rest).2)

theorem says_message {env c f} (h : Carries env c f) (hm : c.isMessage) (hl : c.content.2.2.length < 2 ^ 63) :
    f.Valid ∧ Accepted false f ∧ f.opcode ≠ 8 ∧ openAfterFrame false f = false ∧ Says c f := by
  have hc : CarryAll env [c] [f] := ⟨h, trivial⟩
  obtain ⟨a1, a2, a3⟩ := carryAll_accepted env [c] [f] (fun d hd => by rw [List.mem_singleton.mp hd]; exact hm)
    (fun d hd => by rw [List.mem_singleton.mp hd]; exact hl) hc
  cases a1 with
  | cons hv hacc h8 hrest =>
    have ho : openAfterFrame false f = false := by
      generalize openAfterFrame false f = o at hrest ⊢
      cases hrest
      rfl
    refine ⟨hv, hacc, h8, ho, ?_⟩
    intro l B e rest he
    have := reassemble_frames (AcceptedAll.cons hv hacc h8 .nil) a2 (l := l) (B := B) (evs := e) ⟨e, [], by simp, he, rfl⟩ rest
    rw [this, a3]
    rfl

theorem says_close {env c f} (h : Carries env c f) (hm : c.isClose) (hl : c.content.2.2.length < 2 ^ 63) :
    f.Valid ∧ Accepted false f ∧ f.opcode = 8 ∧ Says c f := by
  obtain ⟨masked, pos, rfl⟩ := h.is
  obtain ⟨code, reason, h1, h2, h3, h4, h5⟩ := close_args env masked pos c hm
  refine ⟨callFrame_valid env masked pos c hl, .inr ⟨.inl h2, h3⟩, h2, ?_⟩
  intro l B e rest he
  unfold FrameEvents at he
  rw [if_neg (by rw [h2]; decide), if_neg (by rw [h2]; decide), if_pos h2] at he
  obtain ⟨code', e1, e2⟩ := he
  rw [h5] at e1
  have : code' = code := UInt16.toNat_inj.mp e1
  subst this
  rw [e2, h4, h1]
  rfl

theorem _root_.OatWS.Async.CarryAll.append {env cs fs cs' fs'} (h : CarryAll env cs fs) (h' : CarryAll env cs' fs') : CarryAll env (cs ++ cs') (fs ++ fs') := by
  induction cs generalizing fs with
  | nil => cases fs with
    | nil => exact h'
    | cons => exact h.elim
  | cons c cs ih => cases fs with
    | nil => exact h.elim
    | cons f fs => exact ⟨h.1, ih h.2⟩

theorem _root_.OatWS.Async.CarryAll.length {env cs fs} (h : CarryAll env cs fs) : cs.length = fs.length := by
  induction cs generalizing fs with
  | nil => cases fs with
    | nil => rfl
    | cons => exact h.elim
  | cons c cs ih => cases fs with
    | nil => exact h.elim
    | cons f fs => simp [ih h.2]

theorem _root_.OatWS.Async.CarryAll.split {env cs cs' fs} (h : CarryAll env (cs ++ cs') fs) : ∃ f1 f2, fs = f1 ++ f2 ∧ CarryAll env cs f1 ∧ CarryAll env cs' f2 := by
  induction cs generalizing fs with
  | nil => exact ⟨[], fs, rfl, trivial, h⟩
  | cons c cs ih => cases fs with
    | nil => exact h.elim
    | cons f fs =>
      obtain ⟨f1, f2, rfl, h1, h2⟩ := ih h.2
      exact ⟨f :: f1, f2, rfl, ⟨h.1, h1⟩, h2⟩

theorem _root_.OatWS.Async.CarryAll.get {env cs fs} (h : CarryAll env cs fs) (n : Nat) (f : Frame) (hf : fs[n]? = some f) : ∃ c, cs[n]? = some c ∧ Carries env c f := by
  induction cs generalizing fs n with
  | nil => cases fs with
    | nil => cases hf
    | cons => exact h.elim
  | cons c cs ih => cases fs with
    | nil => exact h.elim
    | cons f fs =>
      cases n with
      | zero => injection hf with hf; subst hf; exact ⟨c, rfl, h.1⟩
      | succ n => exact ih h.2 n hf

theorem Talk.says {env cs last fs} (ht : Talk cs last) (h : CarryAll env (cs ++ last) fs) (n : Nat) (l B : Nat) (evs rest : List Event)
    (he : FramesEvents l B (fs.take n) evs) :
    reassemble [] (evs ++ rest) = (((cs ++ last).take n).map SendCall.msg ++ (reassemble [] rest).1, (reassemble [] rest).2) := by
  have hs : ∀ c ∈ cs ++ last, ∀ f, Carries env c f → Says c f := by
    intro c hc f hf
    rcases List.mem_append.mp hc with hc' | hc'
    · exact (says_message hf (ht.messages c hc') (ht.small c hc)).2.2.2.2
    · rcases ht.ends with e | ⟨d, e, hd⟩
      · rw [e] at hc'; cases hc'
      · rw [e, List.mem_singleton] at hc'
        subst hc'
        exact (says_close hf hd (ht.small c hc)).2.2.2
  clear ht
  generalize cs ++ last = C at h hs
  induction C generalizing fs n evs with
  | nil => cases fs with
    | nil =>
      rw [List.take_nil] at he
      rw [show evs = [] from he]
      simp
    | cons => exact h.elim
  | cons c C ih => cases fs with
    | nil => exact h.elim
    | cons f fs =>
      cases n with
      | zero => rw [show evs = [] from he]; simp
      | succ n =>
        rw [List.take_succ_cons] at he
        obtain ⟨e, es, rfl, h1, h2⟩ := he
        rw [List.append_assoc, hs c (by simp) f h.1 l B e _ h1, ih n es h2 h.2 (fun c hc => hs c (by simp [hc]))]
        simp

theorem Talk.shape {env cs last fs} (ht : Talk cs last) (h : CarryAll env (cs ++ last) fs) :
    (fs = [] ∧ last = []) ∨ ∃ fs' f, fs = fs' ++ [f] ∧ AcceptedAll false fs' false ∧ f.Valid ∧ Accepted false f ∧ (f.opcode = 8 ↔ last ≠ []) := by
  obtain ⟨f1, f2, rfl, h1, h2⟩ := h.split
  have a1 := (carryAll_accepted env cs f1 ht.messages (fun c hc => ht.small c (by simp [hc])) h1).1
  rcases ht.ends with e | ⟨c, e, hc⟩
  · subst e
    cases f2 with
    | cons => exact h2.elim
    | nil =>
      rcases List.eq_nil_or_concat f1 with e | ⟨fs', f, e⟩
      · left; exact ⟨by simp [e], rfl⟩
      · right
        rw [List.concat_eq_append] at e
        subst e
        have hlen := h1.length
        rcases List.eq_nil_or_concat cs with e | ⟨cs', c, e⟩
        · subst e; simp at hlen
        · rw [List.concat_eq_append] at e
          subst e
          obtain ⟨g1, g2, e, k1, k2⟩ := h1.split
          cases g2 with
          | nil => exact k2.elim
          | cons g g2 =>
            cases g2 with
            | cons => exact k2.2.elim
            | nil =>
              obtain ⟨rfl, e'⟩ := List.append_inj' e rfl
              injection e' with e _
              subst e
              obtain ⟨m1, m2, m3, m4, _⟩ := says_message k2.1 (ht.messages c (by simp)) (ht.small c (by simp))
              have a2 := (carryAll_accepted env cs' fs' (fun c hc => ht.messages c (by simp [hc])) (fun c hc => ht.small c (by simp at hc ⊢; simp [hc])) k1).1
              exact ⟨fs', f, by simp, a2, m1, m2, fun h => absurd h m3, fun h => absurd rfl h⟩
  · subst e
    right
    cases f2 with
    | nil => exact h2.elim
    | cons f f2 =>
      cases f2 with
      | cons => exact h2.2.elim
      | nil =>
        obtain ⟨m1, m2, m3, _⟩ := says_close h2.1 hc (ht.small c (by simp))
        exact ⟨f1, f, rfl, a1, m1, m2, fun _ => by simp, fun _ => m3⟩

/-- What an endpoint has written: frames that carry the calls, the last one possibly not yet completely. -/
theorem Fed.sent {envA : Env} {p q : Pool} {la fed} (h : Fed envA p la fed q) {fuel : Nat} (hp : ∀ t ∈ p.threads, AppThread envA fuel t)
    (hser : Serialised la) (hok : ∀ e ∈ la, e.failed = false) (hsmall : ∀ c ∈ callsOf la, c.content.2.2.length < 2 ^ 63) :
    ∃ F, CarryAll envA (callsOf la) F ∧ la.flatMap Entry.wrote <+: wireOf F ∧ ((∀ j, ¬ Sending j la) → la.flatMap Entry.wrote = wireOf F) := by
  obtain ⟨used, hl, _⟩ := h.logged [] []
  have hp : ∀ t ∈ (withInp p (p.st.inp.bytes ++ fed ++ []) (used ++ [])).threads, AppThread envA fuel t := hp
  have hw := (C58_every_send envA fuel _ hp la _ hl).2
  rcases C58_serialised envA fuel _ hp la _ hl hser hok hsmall with ⟨fs, h1, _, h3⟩ | ⟨cs, c, fs, f, part, j, h1, h2, h3, h4, h5, _, h7⟩
  · rw [hw] at h3
    have := List.append_cancel_left h3
    exact ⟨fs, h1, by rw [this]; exact List.prefix_refl _, fun _ => this⟩
  · rw [hw] at h7
    have := List.append_cancel_left h7
    refine ⟨fs ++ [f], by rw [h1]; exact h2.append ⟨h3, trivial⟩, ?_, fun h => absurd h5 (h j)⟩
    rw [this, wireOf_append, show wireOf [f] = f.encode by simp [wireOf]]
    exact (List.prefix_append_right_inj _).mpr h4

/-- The rules, with what is known of the transport. -/
def fineRules (l B : Nat) (st : St) : Rules := ⟨(· = l), B, fun o => (∀ o ∈ st.inp.sched, o.fine = true) → o.fine = true⟩

theorem fineRules_op {l B : Nat} {st : St} (op : UserOp) (h : (steady l B).Op op) : (fineRules l B st).Op op := by cases op <;> exact h

theorem fineRules_sched {l B : Nat} {st : St} {used : List IoOutcome} (h : ∀ o ∈ used, o.fine = false → o ∈ st.inp.sched) : ∀ o ∈ used, (fineRules l B st).outcome o := by
  intro o ho hfine
  cases hf : o.fine with
  | true => rfl
  | false => rw [← hf]; exact hfine o (h o ho hf)

/-- From what `Heard` says to what has been received: `got` is what has been read of what has arrived. -/
theorem heard_of {envB : Env} {p0 p : Pool} {sent : List UInt8} {used : List IoOutcome} {l B : Nat}
    (q : Prog Unit) (hx : IsAt q .reading ∨ IsAt q (.ret ()) ∧ envB.Calm)
    (hrec : ∀ x, IsAt q x → x = .reading ∨ x = .ret () → ∃ whole part fe, Heard (fineRules l B p0.st) false { p0.st with inp := ⟨sent ++ [0], used⟩ } (withInp p (p.st.inp.bytes ++ [0]) []).st whole part fe ∧
      ListenShows (fineRules l B p0.st) envB fe (withInp p (p.st.inp.bytes ++ [0]) []).st x) :
    ∃ got ds r evs, sent = got ++ p.st.inp.bytes ∧ p.st.sock.trace = p0.st.sock.trace ++ evs ∧ Receives false got ds r ∧ Renders l B evs ds ∧ r ≠ .interrupted ∧
      ((∀ o ∈ p0.st.inp.sched, o.fine = true) → IsAt q (.ret ()) → p.st.sock.listening = true → r ≠ .incomplete ∧ r ≠ .stopped) ∧
      (IsAt q .reading → r = .incomplete) := by
  -- in both cases
  have key : ∃ whole part fe, Heard (fineRules l B p0.st) false { p0.st with inp := ⟨sent ++ [0], used⟩ } (withInp p (p.st.inp.bytes ++ [0]) []).st whole part fe ∧
      fe ≠ .over .interrupted ∧ ((∀ o ∈ p0.st.inp.sched, o.fine = true) → IsAt q (.ret ()) → p.st.sock.listening = true →
        ∃ r, fe = .over r ∧ r ≠ .incomplete ∧ r ≠ .stopped) ∧ (IsAt q .reading → fe = .over .incomplete) := by
    have hnot : ¬ (IsAt q .reading ∧ IsAt q (.ret ())) := by
      rintro ⟨h1, h2⟩
      cases q with
      | ret => cases h1
      | act a _ => cases a <;> first | cases h2 | exact h2.elim
      | _ => cases h2
    rcases hx with hx | ⟨hx, hcalm⟩
    · obtain ⟨whole, part, fe, h1, h2⟩ := hrec _ hx (by first | exact .inl rfl | exact .inr rfl)
      refine ⟨whole, part, fe, h1, ?_, fun _ h => absurd ⟨hx, h⟩ hnot, fun _ => ?_⟩
      · rintro rfl
        rcases h2 with h | ⟨_, h | h⟩ <;> cases h
      · cases fe with
        | next o => cases h2.1
        | over r =>
          cases r with
          | incomplete => rfl
          | stopped => exact h2.elim
          | interrupted => rcases h2 with h | ⟨_, h | h⟩ <;> cases h
          | _ => cases h2
    · obtain ⟨whole, part, fe, h1, h2⟩ := hrec _ hx (by first | exact .inl rfl | exact .inr rfl)
      refine ⟨whole, part, fe, h1, ?_, fun hf _ hon => ?_, fun h => absurd ⟨h, hx⟩ hnot⟩
      · rintro rfl
        rcases h2 with h | ⟨h, _⟩
        · cases h
        · exact h hcalm
      · cases fe with
        | next o => have := h2.2; rw [show p.st.sock.listening = false from this] at hon; cases hon
        | over r =>
          refine ⟨r, rfl, ?_, ?_⟩
          · rintro rfl
            rcases h2 with h | ⟨_, h⟩
            · cases h
            · have := h (fun o ho => ho hf)
              have : p.st.inp.bytes ++ [0] = [] := this
              simp at this
          · rintro rfl
            exact h2
  obtain ⟨whole, part, fe, hh, hne, hret, hread⟩ := key
  obtain ⟨ds, o1, ds', evs, h1, h2, h3, h4⟩ := hh.told
  have h4 := RendersBy.renders (l := l) (B := B) h4
  have hbytes : sent = whole ++ part ++ p.st.inp.bytes := by
    have : sent ++ [0] = whole ++ part ++ (p.st.inp.bytes ++ [0]) := hh.bytes
    rw [← List.append_assoc] at this
    exact List.append_cancel_right this
  obtain ⟨r, hr, hrne, hrr⟩ : ∃ r, Receives false (whole ++ part) (ds ++ ds') r ∧ r ≠ .interrupted ∧ (∀ r', fe = .over r' → r = r') := by
    cases fe with
    | next o => exact ⟨_, h1.receives (.stop h2), nofun, nofun⟩
    | over r => exact ⟨r, h1.receives (.last h2), fun e => hne (by rw [e]), fun r' e => FrameEnd.over.inj e⟩
  refine ⟨whole ++ part, ds ++ ds', r, evs, hbytes, h3, hr, h4, hrne, fun a b c => ?_, fun h => hrr _ (hread h)⟩
  obtain ⟨r', e1, e2, e3⟩ := hret a b c
  rw [hrr r' e1]
  exact ⟨e2, e3⟩

/-- What a listening thread has heard: `got` is what it has read of what has arrived. -/
theorem Fed.heard {envB : Env} {p0 p : Pool} {logB sent} (hfed : Fed envB p0 logB sent p) {fuelB l B : Nat} (hB : Listening envB fuelB l B p0)
    (q : Prog Unit) (hq : p.threads[0]? = some q) (hx : IsAt q .reading ∨ IsAt q (.ret ()) ∧ envB.Calm) :
    ∃ got ds r evs, sent = got ++ p.st.inp.bytes ∧ p.st.sock.trace = p0.st.sock.trace ++ evs ∧ Receives false got ds r ∧ Renders l B evs ds ∧ r ≠ .interrupted ∧
      ((∀ o ∈ p0.st.inp.sched, o.fine = true) → IsAt q (.ret ()) → p.st.sock.listening = true → r ≠ .incomplete ∧ r ≠ .stopped) ∧
      (IsAt q .reading → r = .incomplete) := by
  obtain ⟨used, hlog, hused⟩ := hfed.logged [0] []
  obtain ⟨hd, others, hts, hoth⟩ := hB.threads
  rw [hB.nothing, List.nil_append, List.append_nil] at hlog
  have hin : (fineRules l B p0.st).In false { p0.st with inp := ⟨sent ++ [0], used⟩ } := ⟨hB.start.listener, hB.start.size, fineRules_sched hused, hB.start.opened⟩
  have hsteps : Pool.Steps envB ⟨listenT envB fuelB hd :: others, { p0.st with inp := ⟨sent ++ [0], used⟩ }⟩
      (withInp p (p.st.inp.bytes ++ [0]) []) := by
    have := hlog.steps
    unfold withInp at this
    rw [hts] at this
    exact this
  exact heard_of q hx fun x hx _ => C59_reception _ envB false fuelB hd _ others _ (fun tr op h => fineRules_op op (hB.callbacks tr op h)) hB.size hin
    (fun q h => (hoth q h).weaken fineRules_op) hsteps q hq x hx

/-- Data frames carry text and binary messages. -/
theorem Talk.data {env : Env} {cs last : List SendCall} (ht : Talk cs last) {c : SendCall} (hc : c ∈ cs ++ last) {f : Frame} (hf : Carries env c f) (hd : isDataOpcode f.opcode) :
    ∃ d, (c.msg = .text d ∨ c.msg = .binary d) ∧ f.payload = d := by
  have hk : c.isMessage ∨ c.isClose := by
    rcases List.mem_append.mp hc with hc | hc
    · exact .inl (ht.messages c hc)
    · rcases ht.ends with e | ⟨c', e, h⟩
      · rw [e] at hc; cases hc
      · rw [e, List.mem_singleton] at hc
        subst hc
        exact .inr h
  have ho := hf.opcode
  have hp := hf.payload
  unfold isDataOpcode at hd
  cases c with
  | text m => exact ⟨_, .inl rfl, hp⟩
  | binary m => exact ⟨_, .inr rfl, hp⟩
  | oneFrame a b d => rcases hk with hk | hk <;> exact hk.elim
  | _ =>
    rw [ho] at hd
    rcases hd with hd | hd | hd <;> cases hd

/-- From the calls to the callbacks: `F` are the frames of the calls, `sent` is what was written of them, `got` what was received of that. -/
theorem Talk.heard {env : Env} {cs last : List SendCall} (ht : Talk cs last) {F : List Frame} (hF : CarryAll env (cs ++ last) F) {sent got rest : List UInt8} (hpre : sent <+: wireOf F)
    (hbytes : sent = got ++ rest) {ds : List Delivery} {r : Reason} (hr : Receives false got ds r) (hrne : r ≠ .interrupted) {l B : Nat} {evs : List Event} (h4 : Renders l B evs ds) :
    (∃ n, Network.HeardFirst (cs ++ last) l n evs) ∧ (sent = wireOf F → rest = [] → Network.HeardAll (cs ++ last) l evs) ∧
      (r ≠ .incomplete → r ≠ .stopped → Network.HeardAll (cs ++ last) l evs ∧ last ≠ []) ∧ (sent = wireOf F → rest = [] → last ≠ [] → r ≠ .incomplete) := by
  have hpre' : got <+: wireOf F := by
    refine List.IsPrefix.trans ?_ hpre
    rw [hbytes]
    exact List.prefix_append _ _
  have hlen := hF.length
  rcases ht.shape hF with ⟨e, el⟩ | ⟨F', f, e, ha, hv, hacc, h8⟩
  · subst e
    rw [show wireOf [] = [] from rfl] at hpre'
    rw [List.prefix_nil.mp hpre'] at hr
    obtain ⟨e1, e2⟩ := hr.nil
    rw [e1] at h4
    have e3 := h4.nil_inv
    subst e3
    refine ⟨⟨0, fun _ h => (by cases h), Nat.zero_le _, rfl, .inl rfl⟩, fun _ _ => ⟨fun _ h => (by cases h), ?_⟩, fun h _ => absurd e2 h, fun _ _ h => absurd el h⟩
    rw [List.eq_nil_of_length_eq_zero (hlen.trans rfl)]
    rfl
  · subst e
    obtain ⟨n, D, hn, e1, k1, k2, k3⟩ := hr.prefix ha hv hacc hpre' hrne
    have hreason := hr.prefix_reason ha hv hacc hpre' hrne
    rw [e1] at h4
    obtain ⟨ew, ec, rfl, hw, hcut⟩ := h4.split
    have hmem : ∀ g ∈ F' ++ [f], ∃ o, Accepted o g := by
      intro g hg
      rcases List.mem_append.mp hg with hg | hg
      · exact ha.mem g hg
      · rw [List.mem_singleton.mp hg]; exact ⟨_, hacc⟩
    have hw := deliveries_framesEvents (fun g hg => hmem g (List.mem_of_mem_take hg)) hw
    have hsay := ht.says hF n l B ew ec hw
    have total : (wireOf (F' ++ [f])).length ≤ got.length → n = (F' ++ [f]).length := by
      intro hle
      rcases Nat.lt_or_ge n (F' ++ [f]).length with hlt | hge
      · have := (k2 _ (List.getElem?_eq_getElem hlt)).1
        have hp : wireOf ((F' ++ [f]).take (n + 1)) <+: wireOf (F' ++ [f]) := by
          refine ⟨wireOf ((F' ++ [f]).drop (n + 1)), ?_⟩
          rw [← wireOf_append, List.take_append_drop]
        have := hp.length_le
        omega
      · omega
    -- the frame that is not complete
    have hc2 : (ec = [] ∨ ∃ g d, (F' ++ [f])[n]? = some g ∧ isDataOpcode g.opcode ∧ d <+: g.payload ∧ d.length < g.payload.length ∧ reassemble [] ec = ([], d) ∧ ∀ e ∈ ec, e.to = l) := by
      rcases Nat.lt_or_ge n (F' ++ [f]).length with hlt | hge
      · rcases (k2 _ (List.getElem?_eq_getElem hlt)).2 with rfl | ⟨hd, d, hp, hl, rfl⟩
        · exact .inl hcut.nil_inv
        · obtain ⟨e, es, rfl, hdc, hes⟩ := hcut.data_inv
          have hes := hes.nil_inv
          subst hes
          refine .inr ⟨_, d, List.getElem?_eq_getElem hlt, hd, hp, hl, ?_, ?_⟩
          · rw [reassemble_pieces hdc]
            rfl
          · obtain ⟨opc, chunks, _, _, _, rfl⟩ := hdc
            intro e he
            rw [List.append_nil] at he
            obtain ⟨c, _, rfl⟩ := List.mem_map.mp he
            rfl
      · have := k3 (by omega)
        subst this
        exact .inl hcut.nil_inv
    have hlast : n = (F' ++ [f]).length → ec = [] := fun hn => by
      have := k3 hn
      subst this
      exact hcut.nil_inv
    have hto : ∀ e ∈ ew ++ ec, e.to = l := by
      intro e he
      rcases List.mem_append.mp he with he | he
      · exact events_to hw e he
      · rcases hc2 with rfl | ⟨_, _, _, _, _, _, _, h⟩
        · cases he
        · exact h e he
    have hall : n = (F' ++ [f]).length → Network.HeardAll (cs ++ last) l (ew ++ ec) := by
      intro hn
      refine ⟨hto, ?_⟩
      rw [hsay, hlast hn, List.take_of_length_le (by omega)]
      simp [reassemble]
    refine ⟨⟨n, hto, by omega, ?_, ?_⟩, ?_, ?_, ?_⟩
    · rw [hsay]
      rcases hc2 with rfl | ⟨_, _, _, _, _, _, h, _⟩
      · simp [reassemble]
      · simp [h]
    · rw [hsay]
      rcases hc2 with rfl | ⟨g, d, h5, hdata, h6, h7, h, _⟩
      · exact .inl rfl
      · obtain ⟨c, hc', hcar⟩ := hF.get n g h5
        rw [h]
        obtain ⟨m, hm, em⟩ := ht.data (List.mem_of_getElem? hc') hcar hdata
        refine .inr ⟨c, m, hc', hm, ?_, ?_⟩
        · rw [← em]; exact h6
        · rw [← em]; exact h7
    · intro hdone hempty
      exact hall (total (by rw [← hdone, hbytes, hempty, List.append_nil]; exact Nat.le_refl _))
    · intro h6 h7
      rcases hreason with h | h | ⟨_, h, h'⟩
      · exact absurd h h6
      · exact absurd h h7
      · exact ⟨hall (total (by rw [h']; exact Nat.le_refl _)), h8.mp h⟩
    · rintro hdone hempty hl rfl
      rw [hempty, List.append_nil] at hbytes
      rw [← hbytes, hdone] at hr
      exact hr.whole_close ha hv hacc (h8.mpr hl)

/-- **C63.** Two endpoints are connected. At each, any number of threads use the socket, in any order of steps. At one of them (the
sender) sends are serialised, none has failed, and the calls were messages, ended or not by a close. At the other one (the receiver),
one thread listens; callbacks and other threads may send, ping, stop listening. Whenever the listening thread is about to read, or has
returned (and callbacks do not throw), its listener has heard exactly the messages of the first `n` calls, in the order of the calls,
each once, unchanged, and at most a proper part of the data of the next one. When it waits for input, there is none, and no send is in progress, it has heard all of them (and none was a
close); so it has when listening has ended by itself (then the last one was a close). -/
theorem C63_in_order (envA envB : Env) (fuelA fuelB l B : Nat) (s0 s : Sys) (logA logB : List Entry)
    (hA : ∀ t ∈ s0.a.threads, AppThread envA fuelA t) (hB : Listening envB fuelB l B s0.b) (h : Linked envA envB s0 logA logB s)
    (hser : Serialised logA) (hok : ∀ e ∈ logA, e.failed = false) (cs last : List SendCall) (hc : callsOf logA = cs ++ last) (ht : Talk cs last)
    (q : Prog Unit) (hq : s.b.threads[0]? = some q) (hx : IsAt q .reading ∨ IsAt q (.ret ()) ∧ envB.Calm) :
    ∃ evs n, s.b.st.sock.trace = s0.b.st.sock.trace ++ evs ∧ (∀ e ∈ evs, e.to = l) ∧ n ≤ (callsOf logA).length ∧
      (reassemble [] evs).1 = ((callsOf logA).take n).map SendCall.msg ∧
      ((reassemble [] evs).2 = [] ∨ ∃ c d, (callsOf logA)[n]? = some c ∧ (c.msg = .text d ∨ c.msg = .binary d) ∧ (reassemble [] evs).2 <+: d ∧
        (reassemble [] evs).2.length < d.length) ∧
      ((∀ j, ¬ Sending j logA) → s.b.st.inp.bytes = [] → IsAt q .reading → n = (callsOf logA).length ∧ (reassemble [] evs).2 = [] ∧ last = []) ∧
      ((∀ o ∈ s0.b.st.inp.sched, o.fine = true) → IsAt q (.ret ()) → s.b.st.sock.listening = true →
        n = (callsOf logA).length ∧ last ≠ [] ∧ (reassemble [] evs).2 = []) := by
  obtain ⟨F, hF, hpre, hall⟩ := h.fed.1.sent hA hser hok (by rw [hc]; exact ht.small)
  obtain ⟨got, ds, r, evs, h1, h2, h3, h4, h5, h6, h7⟩ := h.fed.2.heard hB q hq hx
  rw [hc] at hF ⊢
  obtain ⟨⟨n, k0⟩, k1, k2, k3⟩ := ht.heard hF hpre h1 h3 h5 h4
  have all : Network.HeardAll (cs ++ last) l evs → n = (cs ++ last).length ∧ (reassemble [] evs).2 = [] := by
    intro ha
    have e := k0.messages
    rw [ha.2] at e
    have := congrArg List.length e
    simp only [List.length_map, List.length_take] at this
    exact ⟨by have := k0.le; omega, by rw [ha.2]⟩
  refine ⟨evs, n, h2, k0.to, k0.le, k0.messages, k0.part, fun a b c => ⟨(all (k1 (hall a) b)).1, (all (k1 (hall a) b)).2, ?_⟩, fun a b c => ?_⟩
  · rcases Classical.em (last = []) with hl | hl
    · exact hl
    · exact absurd (h7 c) (k3 (hall a) b hl)
  obtain ⟨g1, g2⟩ := k2 (h6 a b c).1 (h6 a b c).2
  exact ⟨(all g1).1, g2, (all g1).2⟩

/-- The same, seen from the other side. -/
theorem Linked.swap {envA envB s0 la lb s} (h : Linked envA envB s0 la lb s) : Linked envB envA ⟨s0.b, s0.a⟩ lb la ⟨s.b, s.a⟩ := by
  induction h with
  | refl => exact .refl
  | left _ h1 h2 h3 ih => exact .right ih h1 h2 h3
  | right _ h1 h2 h3 ih => exact .left ih h1 h2 h3

theorem Listening.app {env fuel l B p} (h : Listening env fuel l B p) : ∀ t ∈ p.threads, AppThread env fuel t := by
  obtain ⟨hd, others, e, ho⟩ := h.threads
  rw [e]
  intro t ht
  rcases List.mem_cons.mp ht with rfl | ht
  · exact .listen _
  · exact HelperCode.app (ho t ht)

/-- **C63** (both directions). Two endpoints are connected; at each, one thread listens, others send, callbacks send. Sends are serialised
at each endpoint (not among them), none has failed, all were messages. When nothing moves any more, that is, both listening threads wait
for input, there is none, and no send is in progress: each listener has heard exactly the messages the other endpoint has sent, in the order
of the calls, each once, unchanged, and nothing else. -/
theorem C63_both (envA envB : Env) (fuelA fuelB lA lB BA BB : Nat) (s0 s : Sys) (logA logB : List Entry)
    (hA : Listening envA fuelA lA BA s0.a) (hB : Listening envB fuelB lB BB s0.b) (h : Linked envA envB s0 logA logB s)
    (hserA : Serialised logA) (hokA : ∀ e ∈ logA, e.failed = false) (htA : Talk (callsOf logA) []) (hdoneA : ∀ j, ¬ Sending j logA)
    (hserB : Serialised logB) (hokB : ∀ e ∈ logB, e.failed = false) (htB : Talk (callsOf logB) []) (hdoneB : ∀ j, ¬ Sending j logB)
    (qA qB : Prog Unit) (hqA : s.a.threads[0]? = some qA) (hqB : s.b.threads[0]? = some qB) (hxA : IsAt qA .reading) (hxB : IsAt qB .reading)
    (heA : s.a.st.inp.bytes = []) (heB : s.b.st.inp.bytes = []) :
    ∃ evsA evsB, s.a.st.sock.trace = s0.a.st.sock.trace ++ evsA ∧ s.b.st.sock.trace = s0.b.st.sock.trace ++ evsB ∧
      reassemble [] evsA = ((callsOf logB).map SendCall.msg, []) ∧ reassemble [] evsB = ((callsOf logA).map SendCall.msg, []) := by
  obtain ⟨eB, n, b1, _, _, b2, _, b3, _⟩ := C63_in_order envA envB fuelA fuelB lB BB s0 s logA logB hA.app hB h hserA hokA _ [] (by simp) htA qB hqB (.inl hxB)
  obtain ⟨eA, m, a1, _, _, a2, _, a3, _⟩ := C63_in_order envB envA fuelB fuelA lA BA ⟨s0.b, s0.a⟩ ⟨s.b, s.a⟩ logB logA hB.app hA h.swap hserB hokB _ [] (by simp) htB qA hqA (.inl hxA)
  obtain ⟨rfl, b4⟩ := b3 hdoneA heB hxB
  obtain ⟨rfl, a4⟩ := a3 hdoneB heA hxA
  rw [List.take_length] at a2 b2
  exact ⟨eA, eB, a1, b1, Prod.ext a2 a4.1, Prod.ext b2 b4.1⟩

/-! ## A concrete case -/

theorem Sys.exec_linked_from {envA envB : Env} {s0 : Sys} : ∀ (is : List (Bool × Nat)) (s : Sys) (la0 lb0 la lb : List Entry) (s' : Sys),
    Linked envA envB s0 la0 lb0 s → Sys.exec envA envB is s = some (la, lb, s') → Linked envA envB s0 (la0 ++ la) (lb0 ++ lb) s' := by
  intro is
  induction is with
  | nil =>
    intro s la0 lb0 la lb s' h0 h
    injection h with h; injection h with h h'; injection h' with h' h''; subst h h' h''
    rw [List.append_nil, List.append_nil]; exact h0
  | cons i is ih =>
    intro s la0 lb0 la lb s' h0 h
    rcases i with ⟨side, i⟩
    cases side with
    | false =>
      rw [Sys.exec] at h
      split at h
      · rename_i a k e
        split at h
        · rename_i r st' e1 e2
          split at h
          · rename_i la' lb' s'' e3
            injection h with h; injection h with h h'; injection h' with h' h''; subst h h' h''
            have := ih _ _ _ _ _ _ (.left h0 e e1 e2) e3
            rwa [List.append_assoc] at this
          · cases h
        · cases h
      · cases h
    | true =>
      rw [Sys.exec] at h
      split at h
      · rename_i a k e
        split at h
        · rename_i r st' e1 e2
          split at h
          · rename_i la' lb' s'' e3
            injection h with h; injection h with h h'; injection h' with h' h''; subst h h' h''
            have := ih _ _ _ _ _ _ (.right h0 e e1 e2) e3
            rwa [List.append_assoc] at this
          · cases h
        · cases h
      · cases h

/-- A client (masks, sends a text and a ping) and a server (answers the ping from the callback, and sends a message by itself). Transports move
one byte at a time. -/
def exLink : Sys :=
  ⟨⟨[listenT Fixture.env 40 default, userOpsT Fixture.env 40 [.send (.text (some [7, 8])) false, .send (.ping (some [0x21])) false]],
    { sock := { Sock.new { readBufferSize := 2, maskOutgoingMessages := true } ⟨[], Fixture.slow 60⟩ with listener := some 1 }, inp := ⟨[], Fixture.slow 60⟩ }⟩,
   ⟨[listenT exEnv 40 default, userOpsT exEnv 40 [.send (.binary (some [1, 2, 3])) false]],
    { sock := { Sock.new { readBufferSize := 2 } ⟨[], Fixture.slow 60⟩ with listener := some 7 }, inp := ⟨[], Fixture.slow 60⟩ }⟩⟩

/-- Sends overlap among the two endpoints: the server's own message and the client's. -/
def linkTurns : List (Bool × Nat) := List.replicate 2 (false, 0) ++ List.replicate 2 (true, 0) ++ List.replicate 20 (false, 1) ++ List.replicate 6 (true, 1) ++
  List.replicate 15 (true, 0) ++ List.replicate 18 (false, 1) ++ List.replicate 7 (true, 1) ++ List.replicate 44 (true, 0) ++ List.replicate 40 (false, 0)

/-- What can be checked by computation: serialised, no send failed, the calls, no send in progress. -/
structure LogView where
  serial : Bool
  tasks : Bool
  calls : List SendCall
  sends0 : List SendState
  sends1 : List SendState
  trace : List Event
  left : List UInt8
  place : Nat
  deriving DecidableEq

def logView (l : List Entry) (p : Pool) : LogView :=
  ⟨serialCheck none l, l.all (fun e => !e.failed && (e.task == 0 || e.task == 1)), callsOf l, (sendsOf 0 l).map Sent.state, (sendsOf 1 l).map Sent.state,
    p.st.sock.trace, p.st.inp.bytes, placeOf p.threads[0]?⟩

def linkView (r : Option (List Entry × List Entry × Sys)) : Option (LogView × LogView) :=
  r.map fun x => (logView x.1 x.2.2.a, logView x.2.1 x.2.2.b)

theorem exLinkRun : linkView (Sys.exec Fixture.env exEnv linkTurns exLink) =
    some (⟨true, true, [.text (some [7, 8]), .ping (some [0x21])], [], [.completed, .completed],
        [.readMessage 1 2 [1], .readMessage 1 2 [2], .readMessage 1 2 [3], .readMessage 1 2 [], .onPong 1 [0x21]], [], 1⟩,
      ⟨true, true, [.binary (some [1, 2, 3]), .pong (some [0x21])], [.completed], [.completed],
        [.readMessage 7 1 [7], .readMessage 7 1 [8], .readMessage 7 1 [], .onPing 7 [0x21]], [], 1⟩) := by decide +kernel

theorem quietLog {log : List Entry} (h : log.all (fun e => !e.failed && (e.task == 0 || e.task == 1)) = true) {n m : Nat}
    (h0 : (sendsOf 0 log).map Sent.state = List.replicate n .completed) (h1 : (sendsOf 1 log).map Sent.state = List.replicate m .completed) (j : Nat) :
    ¬ Sending j log := by
  rintro ⟨s, ss, e, hs⟩
  have key : ∀ (n : Nat) (xs : List Sent), xs.map Sent.state = List.replicate n .completed → xs = s :: ss → False := by
    intro n xs h e
    rw [e, List.map_cons, hs] at h
    cases n with
    | zero => cases h
    | succ n => injection h with h _; cases h
  rcases Nat.lt_or_ge j 2 with hj | hj
  · rcases (by omega : j = 0 ∨ j = 1) with rfl | rfl
    · exact key n _ h0 e
    · exact key m _ h1 e
  · have : log.filter (fun e => e.task == j) = [] := by
      rw [List.filter_eq_nil_iff]
      intro x hx hj'
      have := List.all_eq_true.mp h x hx
      simp at this hj'
      omega
    rw [sendsOf, this] at e
    cases e

theorem exLink_a : Listening Fixture.env 40 1 2 exLink.a :=
  ⟨⟨default, _, rfl, by
      intro q hq
      rw [List.mem_singleton] at hq
      subst hq
      exact .code _ fun op h => (by
        simp only [List.mem_cons, List.not_mem_nil, or_false] at h
        rcases h with rfl | rfl <;> trivial)⟩,
    fun _ _ h => (by cases h), by decide, ⟨⟨1, rfl, rfl⟩, rfl, fun _ _ => trivial, rfl⟩, rfl⟩

theorem exLink_b : Listening exEnv 40 7 2 exLink.b :=
  ⟨⟨default, _, rfl, by
      intro q hq
      rw [List.mem_singleton] at hq
      subst hq
      exact .code _ fun op h => (by rw [List.mem_singleton] at h; subst h; trivial)⟩,
    fun tr op h => (by
      change op ∈ (match tr.getLast? with | some (.onPing _ m) => [UserOp.send (.pong (some m)) false] | _ => []) at h
      split at h
      · rw [List.mem_singleton] at h; subst h; trivial
      · cases h),
    by decide, ⟨⟨7, rfl, rfl⟩, rfl, fun _ _ => trivial, rfl⟩, rfl⟩

/-- The hypotheses of `C63_both` (and those of `C63_in_order`) are met, and its conclusion is what the execution shows. -/
example : ∃ s logA logB, Linked Fixture.env exEnv exLink logA logB s ∧ callsOf logA = [.text (some [7, 8]), .ping (some [0x21])] ∧
    callsOf logB = [.binary (some [1, 2, 3]), .pong (some [0x21])] ∧
    s.a.st.sock.trace = [.readMessage 1 2 [1], .readMessage 1 2 [2], .readMessage 1 2 [3], .readMessage 1 2 [], .onPong 1 [0x21]] ∧
    reassemble [] s.a.st.sock.trace = ((callsOf logB).map SendCall.msg, []) ∧ reassemble [] s.b.st.sock.trace = ((callsOf logA).map SendCall.msg, []) := by
  have h := exLinkRun
  rcases he : Sys.exec Fixture.env exEnv linkTurns exLink with _ | ⟨logA, logB, s⟩
  · rw [he] at h; cases h
  · rw [he] at h
    injection h with h
    injection h with hA hB
    injection hA with a1 a2 a3 a4 a5 a6 a7 a8
    injection hB with b1 b2 b3 b4 b5 b6 b7 b8
    have hl := Sys.exec_linked_from _ _ _ _ _ _ _ .refl he
    have okOf : ∀ {l : List Entry}, l.all (fun e => !e.failed && (e.task == 0 || e.task == 1)) = true → ∀ e ∈ l, e.failed = false := by
      intro l h e hm
      have := List.all_eq_true.mp h e hm
      simp at this
      exact this.1
    have short : ∀ m : List UInt8, m.length ≤ 3 → m.length < 2 ^ 63 := fun m h => Nat.lt_of_le_of_lt h (by decide)
    have tA : Talk (callsOf logA) [] := by
      rw [show callsOf logA = _ from a3]
      refine ⟨?_, .inl rfl, ?_⟩
      · intro c hc
        simp only [List.mem_cons, List.not_mem_nil, or_false] at hc
        rcases hc with rfl | rfl
        · trivial
        · exact (by decide : 1 ≤ 125)
      · intro c hc
        simp only [List.append_nil, List.mem_cons, List.not_mem_nil, or_false] at hc
        rcases hc with rfl | rfl <;> exact short _ (by decide)
    have tB : Talk (callsOf logB) [] := by
      rw [show callsOf logB = _ from b3]
      refine ⟨?_, .inl rfl, ?_⟩
      · intro c hc
        simp only [List.mem_cons, List.not_mem_nil, or_false] at hc
        rcases hc with rfl | rfl
        · trivial
        · exact (by decide : 1 ≤ 125)
      · intro c hc
        simp only [List.append_nil, List.mem_cons, List.not_mem_nil, or_false] at hc
        rcases hc with rfl | rfl <;> exact short _ (by decide)
    obtain ⟨qA, e1, e2⟩ := placeOf_read a8
    obtain ⟨qB, e3, e4⟩ := placeOf_read b8
    obtain ⟨evsA, evsB, g1, g2, g3, g4⟩ := C63_both Fixture.env exEnv 40 40 1 7 2 2 exLink s logA logB exLink_a exLink_b hl
      (serialCheck_sound a1) (okOf a2) tA (quietLog a2 (n := 0) (m := 2) a4 a5) (serialCheck_sound b1) (okOf b2) tB (quietLog b2 (n := 1) (m := 1) b4 b5)
      qA qB e1 e3 e2 e4 a7 b7
    have g1 : s.a.st.sock.trace = evsA := g1
    have g2 : s.b.st.sock.trace = evsB := g2
    subst g1 g2
    exact ⟨s, logA, logB, hl, a3, b3, a6, g3, g4⟩

/-- A server that says goodbye: a message, then a close; the client listens. -/
def exBye : Sys :=
  ⟨⟨[userOpsT Fixture.env 40 [.send (.text (some [7, 8])) false, .send (.close 1000 (some [0x62])) false]],
    { sock := { Sock.new { readBufferSize := 2 } ⟨[], Fixture.slow 60⟩ with listener := none }, inp := ⟨[], []⟩ }⟩,
   ⟨[listenT Fixture.env 40 default],
    { sock := { Sock.new { readBufferSize := 2, maskOutgoingMessages := true } ⟨[], []⟩ with listener := some 7 }, inp := ⟨[], Fixture.slow 60⟩ }⟩⟩

theorem exByeRun : linkView (Sys.exec Fixture.env Fixture.env (List.replicate 24 (false, 0) ++ List.replicate 42 (true, 0)) exBye) =
    some (⟨true, true, [.text (some [7, 8]), .close 1000 (some [0x62])], [.completed, .completed], [], [], [], 0⟩,
      ⟨true, true, [], [], [], [.readMessage 7 1 [7], .readMessage 7 1 [8], .readMessage 7 1 [], .onClose 7 1000 [0x62]], [], 0⟩) := by decide +kernel

/-- The hypotheses of `C63_in_order` are met by an execution in which listening ends with a close. -/
example : ∃ s logA logB, Linked Fixture.env Fixture.env exBye logA logB s ∧ callsOf logA = [.text (some [7, 8]), .close 1000 (some [0x62])] ∧
    s.b.threads[0]? = some (.ret ()) ∧ (reassemble [] s.b.st.sock.trace).1 = [.text [7, 8], .close 1000 [0x62]] := by
  have h := exByeRun
  rcases he : Sys.exec Fixture.env Fixture.env (List.replicate 24 (false, 0) ++ List.replicate 42 (true, 0)) exBye with _ | ⟨logA, logB, s⟩
  · rw [he] at h; cases h
  · rw [he] at h
    injection h with h
    injection h with hA hB
    injection hA with a1 a2 a3 a4 a5 a6 a7 a8
    injection hB with b1 b2 b3 b4 b5 b6 b7 b8
    have hl := Sys.exec_linked_from _ _ _ _ _ _ _ .refl he
    have ok : ∀ e ∈ logA, e.failed = false := by
      intro e hm
      have := List.all_eq_true.mp a2 e hm
      simp at this
      exact this.1
    have ht : Talk [.text (some [7, 8])] [.close 1000 (some [0x62])] := by
      refine ⟨fun c hc => (by rw [List.mem_singleton] at hc; subst hc; trivial), .inr ⟨_, rfl, (by decide : 1 ≤ 123)⟩, ?_⟩
      intro c hc
      simp only [List.cons_append, List.nil_append, List.mem_cons, List.not_mem_nil, or_false] at hc
      rcases hc with rfl | rfl <;> exact (by decide : 3 < 2 ^ 63) |> Nat.lt_of_le_of_lt (by decide)
    have hr := placeOf_ret b8
    have hb : Listening Fixture.env 40 7 2 exBye.b :=
      ⟨⟨default, [], rfl, fun _ h => (by cases h)⟩, fun _ _ h => (by cases h), by decide, ⟨⟨7, rfl, rfl⟩, rfl, fun _ _ => trivial, rfl⟩, rfl⟩
    obtain ⟨evs, n, g1, _, _, g2, _, _, g3⟩ := C63_in_order Fixture.env Fixture.env 40 40 7 2 exBye s logA logB
      (fun t ht => by rw [show exBye.a.threads = [_] from rfl, List.mem_singleton] at ht; subst ht; exact .code _)
      hb hl (serialCheck_sound a1) ok _ _ a3 ht _ hr (.inr ⟨rfl, fun _ _ h => (by cases h)⟩)
    have g1 : s.b.st.sock.trace = evs := g1
    subst g1
    refine ⟨s, logA, logB, hl, a3, hr, ?_⟩
    rw [show s.b.st.sock.trace = _ from b6]
    decide

end OatWS.Threads
