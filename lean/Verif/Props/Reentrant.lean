import Verif.Proofs.Reentrant
import Verif.Proofs.ReentrantClose
import Verif.Proofs.ReentrantBound
import Verif.Props.Polling
import Verif.Props.Replace
/-! # C96: reading frames from inside callbacks -/

namespace OatWS.Reentrant
open RFC6455

/-! ## A concrete case: `onPing` reads frames until there is a pong -/

/-- In `onPing` (of listener 1) frames are read until a pong has been heard since; then a text is sent. -/
def exCode : Code where
  env := Fixture.env
  next tr i now := match tr.getLast? with
    | some (.onPing _ _) =>
      if (now.drop tr.length).any (fun | .onPong _ _ => true | _ => false) then (if i ≤ 2 then some (.op (.send (.text (some [1])) true)) else none)
      else some (.iterate false)
    | _ => none

theorem exCode_between : exCode.BetweenFrames := by
  intro tr l opcode x data now
  show (match (tr ++ [Event.readMessage l opcode (x :: data)]).getLast? with
    | some (.onPing _ _) => _
    | _ => none) = none
  rw [List.getLast?_concat]

/-- Ping, text "hi", pong, text "yo" (not masked), read two bytes at a time at most. -/
def exStream : List UInt8 := [0x89, 0x00, 0x81, 0x02, 0x68, 0x69, 0x8a, 0x00, 0x81, 0x02, 0x79, 0x6f]

def exSt : St := { sock := { Sock.new { readBufferSize := 1 } ⟨[], Fixture.slow 20⟩ with listener := some 1 }, inp := ⟨exStream, Fixture.slow 40⟩ }

/-- One call of `iterateFrame` has read three frames. -/
theorem exRun : ((iterateFrame exCode 5 5 default exSt).2.sock.trace, (iterateFrame exCode 5 5 default exSt).2.inp.bytes, (iterateFrame exCode 5 5 default exSt).2.sock.out.written, (iterateFrame exCode 5 5 default exSt).1.isRet) =
    ([.onPing 1 [], .readMessage 1 1 [0x68], .readMessage 1 1 [0x69], .readMessage 1 1 [], .onPong 1 []], [0x81, 0x02, 0x79, 0x6f], [0x81, 0x01, 1], true) := by decide +kernel

/-! ## The theorems -/

/-- **C96** (no difference if nobody reads in callbacks). The functions with the callback as a parameter are those of `Model/WebSocket` if callbacks do nothing more. -/
theorem C96_plain (c : Code) (hn : ∀ tr i now, c.next tr i now = none) (steps depth : Nat) (h : Header) (st : St) :
    iterateFrame c steps depth h st = OatWS.iterateFrame c.env h st ∧ listen c steps depth h st = OatWS.listen c.env h st := by
  have hcall : ∀ depth, callback c steps depth = fun mk => liftSock (callListener c.env mk) := by
    intro depth
    funext mk st
    have key : ∀ more : List Event → P St Unit, (∀ tr s, more tr s = (.ret (), s)) → (match st.sock.listener with
      | none => (.ret (), st)
      | some l =>
        match liftSock (callListener c.env mk) st with
        | (.ret _, st') => more (st.sock.trace ++ [mk l]) st'
        | r => r) = liftSock (callListener c.env mk) st := by
      intro more hm
      split
      · rename_i hl
        unfold liftSock callListener
        rw [hl]
      · rcases liftSock (callListener c.env mk) st with ⟨r, s⟩
        cases r with
        | ret a => exact hm _ s
        | _ => rfl
    cases depth with
    | zero =>
      refine key (fun tr => moreWith c _ tr 0 0) fun tr s => ?_
      show (if (c.next tr 0 s.sock.trace).isNone then (Exit.ret (), s) else (.block, s)) = _
      rw [hn]; rfl
    | succ depth =>
      refine key (fun tr => moreWith c _ tr steps 0) fun tr s => ?_
      cases steps <;> unfold moreWith <;> rw [hn] <;> rfl
  have hp : Plain c.env fun mk => liftSock (callListener c.env mk) := fun _ _ _ _ => rfl
  have hpay : ∀ h short, readPayloadWith (fun mk => liftSock (callListener c.env mk)) h short = readPayload c.env h short := by
    intro h short
    unfold readPayloadWith readPayload
    rw [runPayloadLoop_plain hp]
    rfl
  have hit : ∀ h, iterateWith c.env (fun mk => liftSock (callListener c.env mk)) h = OatWS.iterateFrame c.env h := by
    intro h
    unfold iterateWith OatWS.iterateFrame handleFrameWith handleFrame
    simp only [hpay]
  have hloop : ∀ fuel h st, listenLoopWith c.env (fun mk => liftSock (callListener c.env mk)) fuel h st = listenLoop c.env fuel h st := by
    intro fuel
    induction fuel with
    | zero => intro _ _; rfl
    | succ fuel ih =>
      intro h st
      unfold listenLoopWith listenLoop
      rw [hit]
      rcases OatWS.iterateFrame c.env h st with ⟨r, s⟩
      cases r with
      | ret h' => dsimp only; rw [ih]
      | _ => rfl
  constructor
  · unfold iterateFrame
    rw [hcall, hit]
  · unfold listen listenWith OatWS.listen listenBody
    rw [hcall]
    dsimp only
    rw [hloop]
    rcases listenLoop c.env (st.inp.sched.length + 1) h { st with sock := { st.sock with listening := true } } with ⟨r, s⟩
    cases r <;> rfl

example : (iterateFrame ⟨Fixture.env, fun _ _ _ => none⟩ 5 5 default exSt).2.sock.trace = [.onPing 1 []] ∧ (OatWS.iterateFrame Fixture.env default exSt).2.sock.trace = [.onPing 1 []] := by decide +kernel

/-- **C96** (the bounds do not matter). The model bounds how deep callbacks are inside each other and how many operations user code does in one of them; a run that ends within some bounds is the same within all larger ones. -/
theorem C96_bound (c : Code) (steps steps' depth depth' : Nat) (hs : steps ≤ steps') (hd : depth ≤ depth') (h : Header) (st : St) :
    ((iterateFrame c steps depth h st).1 ≠ .block → iterateFrame c steps' depth' h st = iterateFrame c steps depth h st) ∧
      ((listen c steps depth h st).1 ≠ .block → listen c steps' depth' h st = listen c steps depth h st) := by
  obtain ⟨k, rfl⟩ := Nat.exists_eq_add_of_le hs
  obtain ⟨d, rfl⟩ := Nat.exists_eq_add_of_le hd
  have hc := callback_goes c steps k depth d
  exact ⟨(iterate_goes hc h st).resolve_left, (listen_goes hc h st).resolve_left⟩

/-- The case above ends within small bounds, so it ends in the same way within all larger ones. -/
example (k d : Nat) : iterateFrame exCode (3 + k) (1 + d) default exSt = iterateFrame exCode 3 1 default exSt :=
  (C96_bound exCode 3 (3 + k) 1 (1 + d) (Nat.le_add_right ..) (Nat.le_add_right ..) default exSt).1 fun h => by
    have : (iterateFrame exCode 3 1 default exSt).1.isRet = true := by decide +kernel
    rw [h] at this
    cases this

/-- **C96** (`iterateFrame`). Callbacks that are made when a frame has been read completely (`onPing`, `onPong`, `onClose`, the end of a message) may call `iterateFrame` and `listen`, inside each other to any depth: the outermost call of `iterateFrame` has exactly the
effects of reading its frame, and then some frames one after the other, outside of callbacks, with the operations user code does after its nested reads in between; it returns or throws what this does, if it ends at all. -/
theorem C96_iterateFrame (c : Code) (hb : c.BetweenFrames) (steps depth : Nat) (h : Header) (st : St) :
    ∃ acts, (∀ a ∈ acts, c.Does a.1) ∧ Same (iterateFrame c steps depth h st) ((do let h' ← OatWS.iterateFrame c.env h; inTurn c.env acts; pure h') st) :=
  iterate_extends (callback_plain hb steps depth) (callback_extends hb steps depth) h st

example : ∃ acts, (∀ a ∈ acts, exCode.Does a.1) ∧ Same (iterateFrame exCode 5 5 default exSt) ((do let h' ← OatWS.iterateFrame Fixture.env default; inTurn Fixture.env acts; pure h') exSt) :=
  C96_iterateFrame exCode exCode_between 5 5 default exSt

/-- **C96** (`listen`). The same for `listen`: it has exactly the effects of setting the flag and reading frames one after the other. -/
theorem C96_listen (c : Code) (hb : c.BetweenFrames) (steps depth : Nat) (h : Header) (st : St) :
    ∃ acts, (∀ a ∈ acts, c.Does a.1) ∧ Same (listen c steps depth h st) (inTurn c.env ((.start, false) :: acts) st) :=
  listen_acts trivial (iterate_extends (callback_plain hb steps depth) (callback_extends hb steps depth)) h st

example : ∃ acts, (∀ a ∈ acts, exCode.Does a.1) ∧ Same (listen exCode 5 5 default exSt) (inTurn Fixture.env ((.start, false) :: acts) exSt) :=
  C96_listen exCode exCode_between 5 5 default exSt

theorem action_grows (env : Env) (a : Action) (st : St) : ∃ evs, (a.run env st).2.sock.trace = st.sock.trace ++ evs := by
  cases a with
  | frame =>
    obtain ⟨evs, he, -⟩ := C55_frame env default st
    refine ⟨evs, ?_⟩
    rw [← he]
    show ((do let _ ← OatWS.iterateFrame env default : P St Unit) st).2.sock.trace = _
    rw [bind_eq]
    rcases OatWS.iterateFrame env default st with ⟨r, s⟩
    cases r <;> rfl
  | op u => exact ⟨[], by rw [List.append_nil]; exact runUserOp_trace u st.sock⟩
  | start => exact ⟨[], (List.append_nil _).symm⟩

theorem inTurn_grows (env : Env) (acts : List (Action × Bool)) (st : St) : ∃ evs, (inTurn env acts st).2.sock.trace = st.sock.trace ++ evs := by
  induction acts generalizing st with
  | nil => exact ⟨[], (List.append_nil _).symm⟩
  | cons x acts ih =>
    obtain ⟨a, c⟩ := x
    obtain ⟨evs, he⟩ := action_grows env a st
    show ∃ evs, (match a.run env st with
      | (.ret _, st') => inTurn env acts st'
      | (.throw e, st') => if c then inTurn env acts st' else (.throw e, st')
      | r => r).2.sock.trace = _
    rcases hr : a.run env st with ⟨r, s⟩
    rw [hr] at he
    have he : s.sock.trace = st.sock.trace ++ evs := he
    obtain ⟨evs', he'⟩ := ih s
    rw [he, List.append_assoc] at he'
    cases r with
    | ret _ => exact ⟨_, he'⟩
    | throw e => cases c with
      | true => exact ⟨_, he'⟩
      | false => exact ⟨_, he⟩
    | block => exact ⟨_, he⟩
    | ub u => exact ⟨_, he⟩

theorem inTurn_heard (env : Env) (acts : List (Action × Bool)) (ht : ∀ u c, (Action.op u, c) ∈ acts → u.tame) (st : St) (l B : Nat) (o o' : Bool) (hR : Ready env st l B o) (fs : List Frame) (hp : Pollable o fs o') (tail : List UInt8)
    (hb : st.inp.bytes = wireOf fs ++ tail) : Heard l B fs tail st (inTurn env acts st).2 := by
  induction acts generalizing st fs o with
  | nil => exact ⟨[], (List.append_nil _).symm, .inl ⟨0, Nat.zero_le _, rfl, hb⟩⟩
  | cons x acts ih =>
    obtain ⟨a, c⟩ := x
    have ih := ih fun u c h => ht u c (List.mem_cons_of_mem _ h)
    show Heard l B fs tail st (match a.run env st with
      | (.ret _, st') => inTurn env acts st'
      | (.throw e, st') => if c then inTurn env acts st' else (.throw e, st')
      | r => r).2
    have stay : ∀ s, (a.run env st).2 = s → Ready env s l B o → s.sock.trace = st.sock.trace → s.inp.bytes = st.inp.bytes → Heard l B fs tail st (match a.run env st with
      | (.ret _, st') => inTurn env acts st'
      | (.throw e, st') => if c then inTurn env acts st' else (.throw e, st')
      | r => r).2 := by
      intro s hs hR' htr hby
      rcases hr : a.run env st with ⟨r, s'⟩
      rw [hr] at hs
      have hs : s' = s := hs
      subst hs
      have h1 := ih s' o hR' fs hp (hby.trans hb)
      unfold Heard at h1 ⊢
      rw [htr] at h1
      have h0 : ∃ evs, s'.sock.trace = st.sock.trace ++ evs ∧
          ((∃ n, n ≤ fs.length ∧ FramesEvents l B (fs.take n) evs ∧ s'.inp.bytes = wireOf (fs.drop n) ++ tail) ∨ ∃ e1 e2, evs = e1 ++ e2 ∧ FramesEvents l B fs e1) :=
        ⟨[], by rw [htr, List.append_nil], .inl ⟨0, Nat.zero_le _, rfl, hby.trans hb⟩⟩
      cases r with
      | ret _ => exact h1
      | throw e => cases c with
        | true => exact h1
        | false => exact h0
      | block => exact h0
      | ub u => exact h0
    cases a with
    | start => exact stay _ rfl ⟨hR.tame, hR.returns, hR.listener, hR.size, hR.pos, hR.isOpen, hR.healthy⟩ rfl rfl
    | op u =>
      have hk := runUserOp_keeps env u (ht u c (List.mem_cons_self ..)) st.sock
      refine stay _ rfl ⟨hR.tame, hR.returns, hk.listener.trans hR.listener, ?_, hR.pos, ?_, hR.healthy⟩ hk.trace rfl
      · show ((runUserOp env u st.sock).2.config).readBufferSize = B
        rw [hk.config]; exact hR.size
      · show OpenIs o (runUserOp env u st.sock).2.lastOpcode
        rw [hk.lastOpcode]; exact hR.isOpen
    | frame =>
      cases hp with
      | nil =>
        have : ∃ evs, (inTurn env ((.frame, c) :: acts) st).2.sock.trace = st.sock.trace ++ evs := inTurn_grows env ((.frame, c) :: acts) st
        obtain ⟨evs, he⟩ := this
        exact ⟨evs, he, .inr ⟨[], evs, rfl, rfl⟩⟩
      | @cons _ _ f fs hv hacc hp =>
        have hb' : st.inp.bytes = f.encode ++ (wireOf fs ++ tail) := by
          rw [hb, ← List.append_assoc]
          rfl
        obtain ⟨h', evs, st', e1, -, e3, e4, e5, e6⟩ := C91_one_frame env default st l B o hR f hv hacc _ hb'
        have hr : Action.frame.run env st = (.ret (), st') := by
          show (do let _ ← OatWS.iterateFrame env default : P St Unit) st = _
          rw [bind_eq, e1]
          rfl
        rw [hr]
        obtain ⟨evs', k1, k2⟩ := ih st' _ e6 fs hp e5
        refine ⟨evs ++ evs', by rw [← List.append_assoc, ← e3]; exact k1, ?_⟩
        rcases k2 with ⟨n, k2, k3, k4⟩ | ⟨x1, x2, k2, k3⟩
        · exact .inl ⟨n + 1, Nat.succ_le_succ k2, ⟨evs, evs', rfl, e4, k3⟩, k4⟩
        · exact .inr ⟨evs ++ x1, x2, by rw [k2, List.append_assoc], evs, x1, rfl, e4, k3⟩

/-- **C96** (what is heard). On a stream of acceptable frames, read with callbacks that read between frames, and whose operations leave the listener and the configuration alone: at the end of `listen` (or when it waits, or goes on for ever inside callbacks) the listener has
heard exactly the first frames, in the order of the stream, each once and completely, and nothing behind them has been read; or it has heard all of them before anything else. -/
theorem C96_heard (c : Code) (hb : c.BetweenFrames) (ht : ∀ tr i now u, c.next tr i now = some (.op u) → u.tame) (steps depth : Nat) (h : Header) (st : St) (l B : Nat) (o o' : Bool) (hR : Ready c.env st l B o) (fs : List Frame)
    (hp : Pollable o fs o') (tail : List UInt8) (hw : st.inp.bytes = wireOf fs ++ tail) : Heard l B fs tail st (listen c steps depth h st).2 := by
  obtain ⟨acts, hd, hs, -⟩ := C96_listen c hb steps depth h st
  rw [hs]
  refine inTurn_heard c.env _ (fun u cc hu => ?_) st l B o o' hR fs hp tail hw
  rcases List.mem_cons.mp hu with hu | hu
  · injection hu with hu; cases hu
  · obtain ⟨tr, i, now, hn⟩ := hd _ hu
    exact ht tr i now u hn

/-- Five frames, the fourth a close: text fragment, ping, rest of the text, close, ping; in `onPing` the next frame is read. -/
def exIter : Code where
  env := Fixture.stopper
  next tr i _ := match tr.getLast? with
    | some (.onPing _ _) => if i = 0 then some (.iterate true) else none
    | _ => none

theorem exIter_between : exIter.BetweenFrames := by
  intro tr l opcode x data now
  show (match (tr ++ [Event.readMessage l opcode (x :: data)]).getLast? with
    | some (.onPing _ _) => _
    | _ => none) = none
  rw [List.getLast?_concat]

/-- The hypotheses of `C96_heard` are met; the second half of the text is read inside `onPing`. -/
example : Heard 7 2 [Fixture.hel, Fixture.ping, Fixture.lo, Fixture.closing, Fixture.ping] [0x81] (exPolled [0x81]) (listen exIter 5 5 default (exPolled [0x81])).2 :=
  C96_heard exIter exIter_between (fun tr i now u h => by
    dsimp only [exIter] at h
    split at h
    · split at h <;> cases h
    · cases h) 5 5 default (exPolled [0x81]) 7 2 false true (exPolled_ready [0x81] (by decide)) _ exPolled_pollable [0x81] rfl

/-! ## Close -/

/-- **C96** (close). A listener that calls `stopListening` in `onClose`, and does nothing more in callbacks once it has been told of the close: `listen` makes no callback after `onClose`, at whatever depth the close frame was read; and then the flag is off. -/
theorem C96_close (c : Code) (hb : c.BetweenFrames) (hc : c.StopsAtClose) (steps depth : Nat) (h : Header) (st : St) (hn : NoClose st.sock.trace) :
    NoClose (listen c steps depth h st).2.sock.trace ∨
      ∃ tr l code m, (listen c steps depth h st).2.sock.trace = tr ++ [.onClose l code m] ∧ NoClose tr ∧ (listen c steps depth h st).2.sock.listening = false :=
  listen_comes (iterate_comes (callback_plain hb steps depth) (callback_comes hb hc.stops hc.nothing steps depth)) h st hn

/-- Ping, close, text "A". -/
def exCloseSt : St := { sock := { Sock.new { readBufferSize := 1 } ⟨[], Fixture.slow 20⟩ with listener := some 1 }, inp := ⟨[0x89, 0x00, 0x88, 0x00, 0x81, 0x01, 0x41], Fixture.slow 40⟩ }

/-- In `onPing` a frame is read, unless there was a close; in `onClose` the listener does, or does not, call `stopListening`. -/
def exStopping (stops : Bool) : Code where
  env := { Fixture.env with react := fun tr => match tr.getLast? with | some (.onClose _ _ _) => if stops then [.stopListening] else [] | _ => [] }
  next tr i now := if now.any (fun | .onClose _ _ _ => true | _ => false) then none else match tr.getLast? with
    | some (.onPing _ _) => if i = 0 then some (.iterate false) else none
    | _ => none

theorem exStopping_between (b : Bool) : (exStopping b).BetweenFrames := by
  intro tr l opcode x data now
  show (if now.any (fun | .onClose _ _ _ => true | _ => false) then none else match (tr ++ [Event.readMessage l opcode (x :: data)]).getLast? with
    | some (.onPing _ _) => _
    | _ => none) = none
  rw [List.getLast?_concat]
  split <;> rfl

theorem exStopping_stops : (exStopping true).StopsAtClose where
  stops tr l code m := by
    refine ⟨[], ?_⟩
    show (match (tr ++ [Event.onClose l code m]).getLast? with | some (.onClose _ _ _) => if true then [UserOp.stopListening] else [] | _ => []) = _
    rw [List.getLast?_concat]
    rfl
  nothing tr i now l code m hm := by
    show (if now.any (fun | .onClose _ _ _ => true | _ => false) then none else _) = none
    rw [if_pos]
    exact List.any_eq_true.mpr ⟨_, hm, rfl⟩

/-- The hypotheses of `C96_close` are met; the close is read inside `onPing`, and the text behind it is left. -/
example : (NoClose (listen (exStopping true) 5 5 default exCloseSt).2.sock.trace ∨
      ∃ tr l code m, (listen (exStopping true) 5 5 default exCloseSt).2.sock.trace = tr ++ [.onClose l code m] ∧ NoClose tr ∧ (listen (exStopping true) 5 5 default exCloseSt).2.sock.listening = false) ∧
    (listen (exStopping true) 5 5 default exCloseSt).2.sock.trace = [.onPing 1 [], .onClose 1 0 []] ∧ (listen (exStopping true) 5 5 default exCloseSt).2.inp.bytes = [0x81, 0x01, 0x41] :=
  ⟨C96_close _ (exStopping_between true) exStopping_stops 5 5 default exCloseSt nofun, by decide +kernel, by decide +kernel⟩

/-- **C96** (why `stopListening` is needed). A close frame read by `iterateFrame` inside a callback does not end the `listen` around it by itself, as a close frame read by `listen` does: the text behind the close is heard. -/
theorem C96_close_inside : (listen (exStopping false) 5 5 default exCloseSt).2.sock.trace = [.onPing 1 [], .onClose 1 0 [], .readMessage 1 1 [0x41], .readMessage 1 1 []] ∧
    (OatWS.listen (exStopping false).env default exCloseSt).2.sock.trace = [.onPing 1 [], .onClose 1 0 []] := by
  constructor <;> decide +kernel

/-! ## Reading in the middle of a frame -/

/-- Text "h" 0x89 0x00, then a text "A". -/
def exMidSt : St := { sock := { Sock.new { readBufferSize := 1 } ⟨[], Fixture.slow 20⟩ with listener := some 1 }, inp := ⟨[0x81, 0x03, 0x68, 0x89, 0x00, 0x81, 0x01, 0x41], Fixture.slow 40⟩ }

/-- At the first data a frame is read. -/
def exMid : Code where
  env := Fixture.env
  next tr i _ := if tr.length = 1 ∧ i = 0 then some (.iterate true) else none

/-- **C96** (why not in the middle of a frame). `iterateFrame` in `readMessage` with data takes the rest of the payload for a frame: here the second and third byte of the text are heard as a ping, and the header of the next frame as text; outside of callbacks
there is no ping, and two texts. -/
theorem C96_mid_frame : (iterateFrame exMid 5 5 default exMidSt).2.sock.trace = [.readMessage 1 1 [0x68], .onPing 1 [], .readMessage 1 1 [0x81], .readMessage 1 1 [0x01], .readMessage 1 1 []] ∧
    (OatWS.iterateFrame Fixture.env default exMidSt).2.sock.trace = [.readMessage 1 1 [0x68], .readMessage 1 1 [0x89], .readMessage 1 1 [0x00], .readMessage 1 1 []] ∧ ¬ exMid.BetweenFrames := by
  refine ⟨by decide +kernel, by decide +kernel, fun h => ?_⟩
  have : (some (NestedOp.iterate true)) = none := h [] 1 1 0x68 [] []
  cases this

end OatWS.Reentrant
