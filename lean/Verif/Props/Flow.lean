import Verif.Proofs.Stops
import Verif.Proofs.Erase
import Verif.Proofs.Forget
import Verif.Proofs.Truncate
import Verif.Props.Reject
/-! # C17, C18, C20, C43, C44, C45: the receive loop -/

namespace OatWS
open RFC6455

/-! ## C17 -/

/-- **C17** for every listener, stream and schedule: when `iterateFrame` has handled a frame and one of the callbacks made for it
called `stopListening`, the loop of `listen` ends there: in the state `iterateFrame` left, without reading on. -/
theorem C17_loop_ends (env : Env) (h h' : Header) (st st' : St) (evs : List Event) (he : iterateFrame env h st = (.ret h', st'))
    (htr : st'.sock.trace = st.sock.trace ++ evs) (hs : StopsIn env st.sock.trace evs) :
    Listening env h st 1 (.ret ()) st' := by
  have hr := (stopRel env).iterateFrame h st
  rw [he] at hr
  exact .stopped he (stopsIn_of_stopRel hr htr hs)

/-- **C17** for streams of acceptable frames `gs` on a connection that delivers them, for every listener that returns normally and
does not change listener or configuration: either some callback stops; then the frame `g` it belongs to is completed
(all its callbacks are made) and no byte behind it is consumed; no earlier frame's callback had stopped. Or no callback for `gs`
stops; then all are heard. -/
theorem C17_stop_at_frame_boundary (env : Env) (ht : env.Tame) (hst : env.OnlyStops) (l B : Nat) (hB : 0 < B) (h : Header)
    (st : St) (hl : st.sock.listener = some l) (hs : st.sock.config.readBufferSize = B) (o o' : Bool)
    (ho : OpenIs o st.sock.lastOpcode) (hh : Healthy (st.inp.bytes.length + 1) st.inp.sched) (gs : List Frame)
    (ha : AcceptedAll o gs o') (tail : List UInt8) (hb : st.inp.bytes = wireOf gs ++ tail) :
    (∃ fs g rest es e st', gs = fs ++ g :: rest ∧ listen env h st = (.ret (), st') ∧
      st'.sock.trace = st.sock.trace ++ (es ++ e) ∧ FramesEvents l B fs es ∧ FrameEvents l B g e ∧
      ¬ StopsIn env st.sock.trace es ∧ StopsIn env (st.sock.trace ++ es) e ∧ st'.inp.bytes = wireOf rest ++ tail) ∨
    (∃ es more x st', listenBody env h st = (x, st') ∧ st'.sock.trace = st.sock.trace ++ (es ++ more) ∧
      FramesEvents l B gs es ∧ ¬ StopsIn env st.sock.trace es ∧ st'.inp.bytes <:+ tail) := by
  suffices main : ∀ (fuel : Nat) (h : Header) (st : St), st.inp.sched.length < fuel → st.sock.listener = some l →
      st.sock.config.readBufferSize = B → OpenIs o st.sock.lastOpcode → Healthy (st.inp.bytes.length + 1) st.inp.sched →
      st.inp.bytes = wireOf gs ++ tail → st.sock.listening = true →
      (∃ fs g rest es e st', gs = fs ++ g :: rest ∧ listenLoop env fuel h st = (.ret (), st') ∧
        st'.sock.trace = st.sock.trace ++ (es ++ e) ∧ FramesEvents l B fs es ∧ FrameEvents l B g e ∧
        ¬ StopsIn env st.sock.trace es ∧ StopsIn env (st.sock.trace ++ es) e ∧ st'.inp.bytes = wireOf rest ++ tail) ∨
      (∃ es more x st', listenLoop env fuel h st = (x, st') ∧ st'.sock.trace = st.sock.trace ++ (es ++ more) ∧
        FramesEvents l B gs es ∧ ¬ StopsIn env st.sock.trace es ∧ st'.inp.bytes <:+ tail) by
    rcases main (st.inp.sched.length + 1) h { st with sock := { st.sock with listening := true } } (Nat.lt_succ_self _) hl hs ho hh hb rfl with
      ⟨fs, g, rest, es, e, st', h1, h2, h3⟩ | h
    · refine .inl ⟨fs, g, rest, es, e, st', h1, ?_, h3⟩
      have : listenBody env h st = (.ret (), st') := h2
      rw [listen_eq, this]
    · exact .inr h
  clear hl hs ho hh hb h st
  intro fuel h st hf hl hs ho hh hb hlis
  induction ha generalizing fuel h st with
  | nil =>
    right
    obtain ⟨k, ds, r, evs, x, st', e, hL⟩ := listenLoop_receives env ht B hB fuel h st hf hs _ ho
    refine ⟨[], evs, x, st', e, hL.sock.trace, rfl, stopsIn_nil, ?_⟩
    rw [hL.bytes, hb]
    exact List.drop_suffix _ _
  | @cons o f fs o' hv hacc h8 ha' ih =>
    cases fuel with
    | zero => omega
    | succ fuel =>
      rw [wireOf_cons, List.append_assoc] at hb
      have hi := interpretFrame_accepted o f hv hacc (wireOf fs ++ tail)
      rw [if_neg h8, ← hb] at hi
      obtain ⟨evs, x, st', e, hb', hr, htr, hfe⟩ := iterateFrame_over env ht hst.returns B hB h st hs o ho hh _ _ _ _ hi hb
      obtain ⟨⟨h', rfl, hop⟩, ho', hheal⟩ := hfe
      rw [hl] at hr
      have hfr : FrameEvents l B f evs := Renders.frame hacc hr
      have hprog := iterateFrame_progress env h st e
      have hsock : st'.sock.config = st.sock.config ∧ st'.sock.listener = st.sock.listener := by
        obtain ⟨k, ds, fe, evs, st2, x, _, e2, _, _, _, _, g7, _⟩ := iterateFrame_handles env ht h st B hB hs o ho
        rw [e] at e2
        injection e2 with _ e2
        subst e2
        exact ⟨g7.config, g7.listener⟩
      unfold listenLoop
      rw [e]
      simp only []
      by_cases hsi : StopsIn env st.sock.trace evs
      · left
        have hr1 := (stopRel env).iterateFrame h st
        rw [e] at hr1
        rw [if_neg (fun c => by rw [stopsIn_of_stopRel hr1 htr hsi] at c; exact Bool.noConfusion c.2)]
        exact ⟨[], f, fs, [], evs, st', rfl, rfl, htr, rfl, hfr, stopsIn_nil, by simpa using hsi, hb'⟩
      · have hr2 := (onlyRel hst).iterateFrame h st
        rw [e] at hr2
        obtain ⟨evs2, htr2, hlis2⟩ := hr2
        simp only [] at htr2 hlis2
        rw [htr] at htr2
        have := List.append_cancel_left htr2
        subst this
        have hlis' : st'.sock.listening = true := by rw [hlis2 hsi, hlis]
        rw [if_pos ⟨fun e => hop (congrArg some e), hlis'⟩]
        rcases ih fuel h' st' (by omega) (by rw [hsock.2]; exact hl) (by rw [hsock.1]; exact hs) ho' (hheal 1 hh) hb' hlis' with
          ⟨fs1, g, rest, es, e, st2, h1, h2, h3, h4, h5, h6, h7, h9⟩ | ⟨es, more, x, st2, h2, h3, h4, h6, h9⟩
        · refine .inl ⟨f :: fs1, g, rest, evs ++ es, e, st2, by rw [h1]; rfl, h2, ?_, ⟨evs, es, rfl, hfr, h4⟩, h5, ?_, ?_, h9⟩
          · rw [h3, htr]; simp
          · rw [StopsIn.append]
            rintro (h | h)
            · exact hsi h
            · rw [htr] at h6; exact h6 h
          · rw [htr, List.append_assoc] at h7; exact h7
        · refine .inr ⟨evs ++ es, more, x, st2, h2, ?_, ⟨evs, es, rfl, hfr, h4⟩, ?_, h9⟩
          · rw [h3, htr]; simp
          · rw [StopsIn.append]
            rintro (h | h)
            · exact hsi h
            · rw [htr] at h6; exact h6 h

/-- **C17**: a stop requested before `listen` starts has no effect. -/
theorem C17_stop_before_listen (env : Env) (h : Header) (st : St) :
    listen env h (liftSock stopListening st).2 = listen env h st := rfl

/-- A listener that stops at its second callback. -/
def Fixture.stopper : Env := { Fixture.env with react := fun tr => if tr.length = 2 then [.stopListening] else [] }

theorem Fixture.stopper_only : Fixture.stopper.OnlyStops := by
  intro tr s
  show ∃ s', runUserOps Fixture.stopper (if tr.length = 2 then [.stopListening] else []) s = _ ∧ (UserOp.stopListening ∉ (if tr.length = 2 then [UserOp.stopListening] else []) → _)
  split
  · exact ⟨_, rfl, fun h => absurd (by simp) h⟩
  · exact ⟨_, rfl, fun _ => rfl⟩

theorem Fixture.stopper_tame : Fixture.stopper.Tame := by
  intro tr op ho
  have : op ∈ (if tr.length = 2 then [UserOp.stopListening] else []) := ho
  split at this
  · rw [List.mem_singleton.mp this]; trivial
  · cases this

/-- With a read buffer of 2 bytes the second callback is in the middle of "Hel": the frame is completed (third callback), the
ping and the rest stay unread. -/
example : (listen Fixture.stopper default (Fixture.receiving (wireOf [Fixture.hel, Fixture.ping, Fixture.lo]))).1 = .ret () ∧
    (listen Fixture.stopper default (Fixture.receiving (wireOf [Fixture.hel, Fixture.ping, Fixture.lo]))).2.sock.trace
      = [.readMessage 7 1 [0x48], .readMessage 7 1 [0x65], .readMessage 7 1 [0x6c]] ∧
    (listen Fixture.stopper default (Fixture.receiving (wireOf [Fixture.hel, Fixture.ping, Fixture.lo]))).2.inp.bytes
      = wireOf [Fixture.ping, Fixture.lo] := by decide +kernel

/-- The hypotheses of the theorem hold in this case. -/
example := C17_stop_at_frame_boundary Fixture.stopper Fixture.stopper_tame Fixture.stopper_only 7 2 (by decide) default
  (Fixture.receiving (wireOf [Fixture.hel, Fixture.ping, Fixture.lo])) rfl rfl false true rfl (by decide) _ Fixture.accepted []
  (by simp [Fixture.receiving])

/-! ## C18, C44 -/

/-- **C18, C44.** For every stream, schedule, listener and state: running `iterateFrame` in a loop by hand (`Listening`, no bound
on the number of rounds) ends in exactly one way, `n` frames being handled; `listen` makes exactly the same run (same final
state: same callbacks, same bytes consumed) and ends in the same way, except that an exception becomes a normal return. -/
theorem C18_C44_listen_is_the_loop (env : Env) (h : Header) (st : St) :
    ∃ n x st', Listening env h { st with sock := { st.sock with listening := true } } n x st' ∧
      (∀ n2 x2 st2, Listening env h { st with sock := { st.sock with listening := true } } n2 x2 st2 →
        n2 = n ∧ x2 = x ∧ st2 = st') ∧
      listen env h st = ((match x with | .throw _ => .ret () | x => x), st') := by
  obtain ⟨n, hn⟩ := listenLoop_listening env (st.inp.sched.length + 1) h
    { st with sock := { st.sock with listening := true } } (Nat.lt_succ_self _)
  refine ⟨n, _, _, hn, fun n2 x2 st2 h2 => ?_, ?_⟩
  · obtain ⟨a, b, c⟩ := h2.det hn
    exact ⟨a, b, c⟩
  · rw [listen_eq]
    show (match listenLoop env (st.inp.sched.length + 1) h _ with | (.throw _, st') => ((.ret (), st') : Exit Unit × St) | r => r) = _
    rcases listenLoop env (st.inp.sched.length + 1) h _ with ⟨(_ | _ | _ | _), _⟩ <;> rfl

/-- **C18.** `listen` never throws. -/
theorem C18_never_throws (env : Env) (h : Header) (st : St) (e : Err) : (listen env h st).1 ≠ .throw e := by
  rw [listen_eq]
  rcases listenBody env h st with ⟨(_ | _ | _ | _), _⟩ <;> simp

/-- **C18.** `iterateFrame` does throw: a reserved opcode (any state, any listener, healthy connection). -/
example : ∃ st', iterateFrame Fixture.env default (Fixture.receiving [0x83, 0]) = (.throw .unknownFrame, st') ∧
    listen Fixture.env default (Fixture.receiving [0x83, 0]) = (.ret (), { st' with sock := { st'.sock with listening := true } }) :=
  ⟨(iterateFrame Fixture.env default (Fixture.receiving [0x83, 0])).2, by decide +kernel⟩

/-- **C44.** Every frame handled costs at least one low-level read and at least two bytes, for every stream, schedule and
listener. -/
theorem C44_frame_costs (env : Env) (h h' : Header) (st st' : St) (e : iterateFrame env h st = (.ret h', st')) :
    st'.inp.sched.length + 1 ≤ st.inp.sched.length ∧ st'.inp.bytes.length + 2 ≤ st.inp.bytes.length ∧
      st'.inp.bytes <:+ st.inp.bytes :=
  ⟨iterateFrame_progress env h st e, (iterateFrame_eats env h st e).2, (iterateFrame_eats env h st e).1⟩

/-- **C44.** The number of frames handled is at most the number of reads that return, and at most half the number of bytes. -/
theorem C44_frames_bounded (env : Env) (h : Header) (st : St) (n : Nat) (x : Exit Unit) (st' : St) (hL : Listening env h st n x st') :
    n ≤ st.inp.sched.length ∧ 2 * n ≤ st.inp.bytes.length := by
  induction hL with
  | throws | blocks | undefined => omega
  | closed e _ | stopped e _ => have := C44_frame_costs env _ _ _ _ e; omega
  | next e _ _ _ ih => have := C44_frame_costs env _ _ _ _ e; omega

/-- A frame is handled; and a run of `listen` on three frames. -/
example : (iterateFrame Fixture.env default (Fixture.receiving (wireOf [Fixture.hel, Fixture.ping, Fixture.lo]))).1.isRet = true := by
  decide +kernel

example : ∃ n x st', Listening Fixture.env default { Fixture.receiving (wireOf [Fixture.hel, Fixture.ping, Fixture.lo]) with
    sock := { (Fixture.receiving []).sock with listening := true } } n x st' ∧ 2 * n ≤ 24 := by
  obtain ⟨n, x, st', h, _⟩ := C18_C44_listen_is_the_loop Fixture.env default (Fixture.receiving (wireOf [Fixture.hel, Fixture.ping, Fixture.lo]))
  exact ⟨n, x, st', h, (C44_frames_bounded _ _ _ _ _ _ h).2⟩

/-! ## C20 -/

/-- **C20.** For every stream, schedule, configuration (also zero or negative buffer sizes), state and listener that does not
change the configuration inside a callback (it may do anything else): listening never stores more bytes than the receive buffer
has, and never asks for a negative number of bytes. -/
theorem C20_no_overrun (env : Env) (hk : env.KeepsConfig) (h : Header) (st : St) :
    (listen env h st).1 ≠ .ub .bufferOverflow ∧ (listen env h st).1 ≠ .ub .negativeRead ∧
    (iterateFrame env h st).1 ≠ .ub .bufferOverflow ∧ (iterateFrame env h st).1 ≠ .ub .negativeRead := by
  have h1 := (listenLoop_safe hk (st.inp.sched.length + 1) h { st with sock := { st.sock with listening := true } }).1
  have h2 := (iterateFrame_safe hk h st).1
  have e : (listen env h st).1 = match (listenBody env h st).1 with | .throw _ => .ret () | r => r := by
    rw [listen_eq]; rcases listenBody env h st with ⟨(_ | _ | _ | _), _⟩ <;> rfl
  have h3 : (listenBody env h st).1.Safe := h1
  refine ⟨?_, ?_, ?_, ?_⟩
  · rw [e]; intro c
    generalize (listenBody env h st).1 = x at h3 c
    cases x <;> simp_all [Exit.Safe, UB.isMemory]
  · rw [e]; intro c
    generalize (listenBody env h st).1 = x at h3 c
    cases x <;> simp_all [Exit.Safe, UB.isMemory]
  · intro c; rw [c] at h2; exact h2 trivial
  · intro c; rw [c] at h2; exact h2 trivial

/-- Listeners that send, stop, throw and exchange themselves keep the configuration. -/
example : Fixture.stopper.KeepsConfig ∧
    ({ Fixture.env with react := fun _ => [.setListener (some 3), .send (.pong none) true, .throw] } : Env).KeepsConfig := by
  constructor
  · intro tr c hc
    have : UserOp.setConfig c ∈ (if tr.length = 2 then [UserOp.stopListening] else []) := hc
    split at this
    · cases List.mem_singleton.mp this
    · cases this
  · intro tr c hc
    simp at hc

/-- A listener that enlarges the read buffer in its first callback. -/
def Fixture.enlarger : Env :=
  { Fixture.env with react := fun tr => if tr.length = 1 then [.setConfig { readBufferSize := 100 }] else [] }

/-- **C20**, the exception: with a 2-byte buffer and a listener that enlarges `readBufferSize` in a callback, the next read of the
same frame stores 3 bytes into the 2-byte buffer. -/
theorem C20_overrun_on_setConfig :
    (listen Fixture.enlarger default { (Fixture.receiving []) with
      inp := ⟨{ fin := true, opcode := 2, payload := [1, 2, 3, 4, 5] : Frame }.encode, List.replicate 9 (.upTo 9)⟩ }).1
      = .ub .bufferOverflow := by decide +kernel

/-! ## C43 -/

/-- **C43.** The contents of the header object handed in (uninitialised memory, or an earlier frame's header) do not influence
listening at all, for every listener, stream and schedule. -/
theorem C43_listen (env : Env) (h1 h2 : Header) (st : St) : listen env h1 st = listen env h2 st := by
  rw [listen_eq, listen_eq]
  have : listenBody env h1 st = listenBody env h2 st := listenLoop_stale env _ h2 h1 _
  rw [this]

/-- **C43** for a single frame: same outcome, same state; and the header reported to the caller agrees in all fields, except that
an unmasked frame leaves the key bytes of the caller's object alone. -/
theorem C43_iterateFrame (env : Env) (h1 h2 : Header) (st : St) :
    (iterateFrame env h1 st).2 = (iterateFrame env h2 st).2 ∧
    (iterateFrame env h1 st).1 = (iterateFrame env h2 st).1.map (fun h => { h with mask := if h.hasMask then h.mask else h1.mask }) := by
  rw [iterateFrame_stale env h2 h1]
  exact ⟨rfl, rfl⟩

/-- An unmasked frame received into a header object that still has a mask. -/
example : (iterateFrame Fixture.env { (default : Header) with hasMask := true, mask := ⟨1, 2, 3, 4⟩ }
      (Fixture.receiving Fixture.text.encode)).2.sock.trace
    = [.readMessage 7 1 [0x61], .readMessage 7 1 [0x62], .readMessage 7 1 [0x63], .readMessage 7 1 []] := by decide +kernel

/-- **C43.** Of everything received before, only whether a fragmented message is open matters. Take two sockets that are equal
except for their past: what opcode the open message began with, the callbacks already made and the header object left over may
all be different. If the listener does not itself remember its past, listening on the same bytes ends the same way on both,
makes the same further callbacks, consumes the same bytes and leaves equal sockets again (up to that past), for every listener,
stream and schedule. -/
theorem C43_history (env : Env) (h1 h2 : Header) (st1 st2 : St) (o : Bool)
    (ho1 : OpenIs o st1.sock.lastOpcode) (ho2 : OpenIs o st2.sock.lastOpcode)
    (hsame : st2 = { st1 with sock := { st1.sock with lastOpcode := st2.sock.lastOpcode, trace := st2.sock.trace } })
    (hreact : ∀ evs, env.react (st1.sock.trace ++ evs) = env.react (st2.sock.trace ++ evs)) :
    ∃ x s1 s2 evs o', listen env h1 st1 = (x, s1) ∧ listen env h2 st2 = (x, s2) ∧
      s1.sock.trace = st1.sock.trace ++ evs ∧ s2.sock.trace = st2.sock.trace ++ evs ∧
      s2 = { s1 with sock := { s1.sock with lastOpcode := s2.sock.lastOpcode, trace := s2.sock.trace } } ∧
      OpenIs o' s1.sock.lastOpcode ∧ OpenIs o' s2.sock.lastOpcode := by
  have B := samePast_bond hreact
  have hr : SamePast st1.sock.trace st2.sock.trace st1.sock st2.sock :=
    ⟨[], st2.sock.lastOpcode, by rw [List.append_nil]; exact congrArg St.sock hsame, (List.append_nil _).symm, o, ho1, ho2⟩
  have hset : ∀ s t, SamePast st1.sock.trace st2.sock.trace s t →
      SamePast st1.sock.trace st2.sock.trace { s with listening := true } { t with listening := true } := by
    rintro s t ⟨evs, x, rfl, h⟩
    exact ⟨evs, x, rfl, h⟩
  have key := B.listen hset h1 st1 st2 hr (by rw [hsame])
  rw [C43_listen env h2 h1]
  revert key
  rcases listen env h1 st1 with ⟨x, s1⟩
  rcases listen env h1 st2 with ⟨x', s2⟩
  rintro ⟨e, ⟨evs, y, hs, ht, o', ho1', ho2'⟩, hi⟩
  dsimp only at e hs ht hi
  subst e
  obtain ⟨k2, i2⟩ := s2
  dsimp only at hs hi
  subst hs hi
  exact ⟨_, _, _, evs, o', rfl, rfl, ht, rfl, rfl, ho1', ho2'⟩

/-- **C43** with a listener that only looks: not even what was sent before, or the masking settings, matter. -/
theorem C43_history_quiet (env : Env) (hq : env.Quiet) (h1 h2 : Header) (st1 st2 : St) (o : Bool)
    (ho1 : OpenIs o st1.sock.lastOpcode) (ho2 : OpenIs o st2.sock.lastOpcode)
    (hinp : st2.inp = st1.inp) (hlis : st2.sock.listener = st1.sock.listener)
    (hsize : st2.sock.config.readBufferSize = st1.sock.config.readBufferSize) :
    ∃ x s1 s2 evs o', listen env h1 st1 = (x, s1) ∧ listen env h2 st2 = (x, s2) ∧
      s1.sock.trace = st1.sock.trace ++ evs ∧ s2.sock.trace = st2.sock.trace ++ evs ∧ s2.inp = s1.inp ∧
      s2.sock.listening = s1.sock.listening ∧ OpenIs o' s1.sock.lastOpcode ∧ OpenIs o' s2.sock.lastOpcode ∧
      s1.sock.out = st1.sock.out ∧ s2.sock.out = st2.sock.out := by
  have B := sameEars_bond (b1 := st1.sock.trace) (b2 := st2.sock.trace) (o1 := st1.sock.out) (o2 := st2.sock.out)
    (r1 := st1.sock.rngPos) (r2 := st2.sock.rngPos) hq hsize
  have hset : ∀ (s t : Sock), SameEars st1.sock.trace st2.sock.trace st1.sock.config st2.sock.config st1.sock.out st2.sock.out
      st1.sock.rngPos st2.sock.rngPos s t →
      SameEars st1.sock.trace st2.sock.trace st1.sock.config st2.sock.config st1.sock.out st2.sock.out st1.sock.rngPos st2.sock.rngPos
        { s with listening := true } { t with listening := true } := by
    rintro s t ⟨h1, h2, h3, _, h5⟩
    exact ⟨h1, h2, h3, rfl, h5⟩
  have e1 : listen env h1 st1 = listen env h1 { st1 with sock := { st1.sock with listening := true } } := rfl
  have e2 : listen env h2 st2 = listen env h1 { st2 with sock := { st2.sock with listening := true } } := C43_listen ..
  have key := B.listen hset h1 { st1 with sock := { st1.sock with listening := true } } { st2 with sock := { st2.sock with listening := true } }
    ⟨⟨[], (List.append_nil _).symm, (List.append_nil _).symm⟩, ⟨o, ho1, ho2⟩, hlis, rfl, ⟨rfl, rfl⟩, ⟨rfl, rfl⟩, rfl, rfl⟩ hinp.symm
  rw [e1, e2]
  revert key
  rcases listen env h1 { st1 with sock := { st1.sock with listening := true } } with ⟨x, s1⟩
  rcases listen env h1 { st2 with sock := { st2.sock with listening := true } } with ⟨x', s2⟩
  rintro ⟨e, ⟨⟨evs, ht1, ht2⟩, ⟨o', ho⟩, _, hg, _, hw, _⟩, hi⟩
  dsimp only at e
  subst e
  exact ⟨_, _, _, evs, o', rfl, rfl, ht1, ht2, hi.symm, hg, ho.1, ho.2, hw.1, hw.2⟩

/-- A socket in the middle of a binary message that has heard and sent something, and one in the middle of a text message that
has not: the rest of the message is heard the same way. -/
example : ∃ x s1 s2 evs o', listen Fixture.env default { Fixture.receiving Fixture.lo.encode with
        sock := { (Fixture.receiving []).sock with lastOpcode := 2, trace := [.onPong 7 [1]], rngPos := 12 } } = (x, s1) ∧
      listen Fixture.env { (default : Header) with hasMask := true, mask := ⟨1, 2, 3, 4⟩ } { Fixture.receiving Fixture.lo.encode with
        sock := { (Fixture.receiving []).sock with lastOpcode := 1 } } = (x, s2) ∧
      s1.sock.trace = [.onPong 7 [1]] ++ evs ∧ s2.sock.trace = [] ++ evs ∧ s2.inp = s1.inp ∧
      s2.sock.listening = s1.sock.listening ∧ OpenIs o' s1.sock.lastOpcode ∧ OpenIs o' s2.sock.lastOpcode ∧
      s1.sock.out = (Fixture.receiving []).sock.out ∧ s2.sock.out = (Fixture.receiving []).sock.out :=
  C43_history_quiet Fixture.env Fixture.env_quiet _ _ _ _ true (.inr rfl) (.inl rfl) rfl rfl rfl

/-- A listener that answers every callback by a ping, on the same two sockets. -/
example : ∃ x s1 s2 evs o', listen { Fixture.env with react := fun _ => [.send (.ping none) false] } default
        { Fixture.receiving Fixture.lo.encode with sock := { (Fixture.receiving []).sock with lastOpcode := 2, trace := [.onPong 7 [1]] } } = (x, s1) ∧
      listen { Fixture.env with react := fun _ => [.send (.ping none) false] } default
        { Fixture.receiving Fixture.lo.encode with sock := { (Fixture.receiving []).sock with lastOpcode := 1 } } = (x, s2) ∧
      s1.sock.trace = [.onPong 7 [1]] ++ evs ∧ s2.sock.trace = [] ++ evs ∧
      s2 = { s1 with sock := { s1.sock with lastOpcode := s2.sock.lastOpcode, trace := s2.sock.trace } } ∧
      OpenIs o' s1.sock.lastOpcode ∧ OpenIs o' s2.sock.lastOpcode :=
  C43_history _ _ _ _ _ true (.inr rfl) (.inl rfl) rfl fun _ => rfl

/-! ## C45 -/

/-- **C45.** Take any state and a listener that only looks. The same run without a listener ends in the same way, with the same
bytes consumed and written and the same socket state; only the callbacks (and the listener) differ. -/
theorem C45_no_listener (env : Env) (hq : env.Quiet) (h : Header) (st : St) :
    ∃ x st', listen env h st = (x, st') ∧
      listen env h { st with sock := { st.sock with listener := none, trace := [] } } =
        (x, { st' with sock := { st'.sock with listener := none, trace := [] } }) := by
  refine ⟨_, _, rfl, ?_⟩
  have h1 := listenLoop_mutes hq (st.inp.sched.length + 1) h { st with sock := { st.sock with listening := true } }
  have e : listenBody env h { st with sock := { st.sock with listener := none, trace := [] } } =
      ((listenBody env h st).1, (listenBody env h st).2.mute) := Prod.ext h1.1 h1.2
  simp only [listen_eq, e]
  rcases listenBody env h st with ⟨(_ | _ | _ | _), _⟩ <;> rfl

/-- The same for one frame. -/
theorem C45_iterateFrame (env : Env) (hq : env.Quiet) (h : Header) (st : St) :
    ∃ x st', iterateFrame env h st = (x, st') ∧
      iterateFrame env h { st with sock := { st.sock with listener := none, trace := [] } } =
        (x, { st' with sock := { st'.sock with listener := none, trace := [] } }) :=
  ⟨_, _, rfl, Prod.ext (iterateFrame_mutes hq h st).1 (iterateFrame_mutes hq h st).2⟩

/-- With a listener and without: the same ping is consumed. -/
example : (listen Fixture.env default (Fixture.receiving (wireOf [Fixture.ping] ++ [0x88, 0]))).2.sock.trace = [.onPing 7 [0x21], .onClose 7 0 []] ∧
    ∃ x st', listen Fixture.env default (Fixture.receiving (wireOf [Fixture.ping] ++ [0x88, 0])) = (x, st') ∧
      listen Fixture.env default { Fixture.receiving (wireOf [Fixture.ping] ++ [0x88, 0]) with sock := { (Fixture.receiving []).sock with listener := none } }
        = (x, { st' with sock := { st'.sock with listener := none, trace := [] } }) :=
  ⟨by decide +kernel, C45_no_listener Fixture.env Fixture.env_quiet default _⟩

end OatWS
