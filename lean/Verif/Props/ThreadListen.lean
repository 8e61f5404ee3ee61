import Verif.Proofs.ThreadPool
import Verif.Proofs.Events
import Verif.Props.Receive
import Verif.Props.ThreadSends
/-! # C59, C60: a thread listens while others use the socket -/

namespace OatWS.Threads
open RFC6455 Async Prog

/-- **C59** (reception is not disturbed by other threads). One thread runs `listen`; any number of other threads send, stop listening, replace the
listener (by one of those of `C`) and the configuration (with the same buffer size); callbacks do so too; all in any order. Whenever the
listening thread has ended, or is about to read from or to write to the connection: it has received complete frames, and then the bytes `part`
of one more frame, from the bytes that were to be read, nothing lost; the callbacks are the rendering of exactly what these bytes
say, in order; and `listen` has ended only for a reason (`ListenShows`). -/
theorem C59_reception (C : Rules) (env : Env) (o : Bool) (fuel : Nat) (h : Header) (st : St) (others : List (Prog Unit)) (p : Pool)
    (henv : C.Reacts env) (hB : 0 < C.size) (hin : C.In o st) (hoth : ∀ q ∈ others, C.Helper env fuel q)
    (hs : Pool.Steps env ⟨listenT env fuel h :: others, st⟩ p) (q : Prog Unit) (hq : p.threads[0]? = some q) (x : Out Unit) (hx : IsAt q x) :
    ∃ whole part fe, Heard C o st p.st whole part fe ∧ ListenShows C env fe p.st x := by
  obtain ⟨q', hq', hph⟩ := ((ListenInv.start (h := h) hin hoth).steps henv hB rfl hs).first
  rw [hq] at hq'
  injection hq' with hq'
  subst hq'
  cases hph with
  | before _ hql => subst hql; exact hx.elim
  | going v hv =>
    obtain ⟨whole, part, fe, h1, h2, _⟩ := hv.heard hx
    exact ⟨whole, part, fe, h1, h2⟩

theorem RendersBy.renders {l B : Nat} {evs ds} (h : RendersBy (· = l) B evs ds) : Renders l B evs ds := by
  induction h with
  | nil => exact .nil
  | @data op cs evs ds hc _ ih =>
    have hm : cs.map (fun c => Event.readMessage c.1 op c.2) = (cs.map Prod.snd).map (Event.readMessage l op) := by
      rw [List.map_map]
      exact List.map_congr_left fun c hm => by rw [(hc c hm).1]; rfl
    rw [hm]
    refine .data ?_ ih
    intro c hm
    obtain ⟨d, hd, rfl⟩ := List.mem_map.mp hm
    exact (hc d hd).2
  | endOfMessage hl _ ih => subst hl; exact .endOfMessage ih
  | ping hl _ ih => subst hl; exact .ping ih
  | pong hl _ ih => subst hl; exact .pong ih
  | close hl _ ih => subst hl; exact .close ih

/-- **C59** (every frame is heard). One listener, callbacks that do not throw, reads that do not fail: if `listen` has returned and listening was
not switched off, then of any sequence of acceptable frames at the beginning of the input every frame has been heard, in order, and then
what follows it; whatever other threads did meanwhile. -/
theorem C59_frames_heard (C : Rules) (env : Env) (o o' : Bool) (fuel : Nat) (h : Header) (st : St) (others : List (Prog Unit)) (p : Pool) (l : Nat)
    (henv : C.Reacts env) (hB : 0 < C.size) (hin : C.In o st) (hoth : ∀ q ∈ others, C.Helper env fuel q)
    (hl : C.listener = (· = l)) (hcalm : env.Calm) (hfine : C.Fine)
    (hs : Pool.Steps env ⟨listenT env fuel h :: others, st⟩ p) (hend : p.threads[0]? = some (.ret ())) (hon : p.st.sock.listening = true)
    (fs : List Frame) (tail : List UInt8) (ha : AcceptedAll o fs o') (hb : st.inp.bytes = wireOf fs ++ tail) :
    ∃ evs evs', p.st.sock.trace = st.sock.trace ++ evs ++ evs' ∧ FramesEvents l C.size fs evs ∧ (tail = [] → evs' = [] ∧ p.st.inp.bytes = []) := by
  obtain ⟨whole, part, fe, hh, hsh⟩ := C59_reception C env o fuel h st others p henv hB hin hoth hs _ hend (.ret ()) rfl
  obtain ⟨ds, o1, ds', evs, h1, h2, h3, h4⟩ := hh.told
  rw [hl] at h4
  have h4 := h4.renders
  have hpre : whole ++ part <+: wireOf fs ++ tail := ⟨p.st.inp.bytes, by rw [← hb, hh.bytes]⟩
  obtain ⟨r, hfe, hr, hinc⟩ : ∃ r, fe = .over r ∧ r.ofBytes ∧ (r = .incomplete → whole ++ part = wireOf fs ++ tail) := by
    cases fe with
    | next o2 => have := hsh.2; rw [hon] at this; cases this
    | over r =>
      refine ⟨r, rfl, ?_⟩
      cases r with
      | stopped => exact hsh.elim
      | interrupted =>
        rcases hsh with h | ⟨h, _⟩
        · cases h
        · exact absurd hcalm h
      | incomplete =>
        rcases hsh with h | ⟨_, h⟩
        · cases h
        · refine ⟨trivial, fun _ => ?_⟩
          rw [← hb, hh.bytes, h hfine, List.append_nil]
      | _ => exact ⟨trivial, fun h => (by cases h)⟩
  subst hfe
  obtain ⟨bs', ds2, g1, g2, g3, g4, g5⟩ := Receives.frames ha (h1.receives (.last h2)) hpre hr hinc
  rw [g2] at h4
  obtain ⟨e1, e2, rfl, k1, k2⟩ := h4.split
  refine ⟨e1, e2, by rw [h3, List.append_assoc], k1.frames ha, ?_⟩
  rintro rfl
  have hbs : bs' = [] := List.prefix_nil.mp g4
  subst hbs
  obtain ⟨_, e, _⟩ := g3.over (T := []) (List.prefix_refl _) hr (fun _ => rfl) (o := o') (B := []) (D := []) (r' := .incomplete) rfl
  subst e
  refine ⟨k2.nil_inv, ?_⟩
  have := hh.bytes
  rw [hb, g1] at this
  simpa using this

/-- **C60** (stopping from another thread). If listening is switched off at `p1`, after `listen` was called (thread 0 has made its
first step), by whichever thread, then, wherever `listen` is later (at `p2`): every frame but the last one it has received was already
received completely at `p1`. So after the stop it receives at most the rest of the frame it is at, or one more frame, and returns. -/
theorem C60_stopped (C : Rules) (env : Env) (o : Bool) (fuel : Nat) (h : Header) (st : St) (others : List (Prog Unit)) (a b p1 p2 : Pool)
    (henv : C.Reacts env) (hB : 0 < C.size) (hin : C.In o st) (hoth : ∀ q ∈ others, C.Helper env fuel q)
    (hs0 : Pool.Steps env ⟨listenT env fuel h :: others, st⟩ a) (hs1 : Pool.StepOf env 0 a b) (hs2 : Pool.Steps env b p1)
    (hoff : p1.st.sock.listening = false) (hs3 : Pool.Steps env p1 p2) (q : Prog Unit) (hq : p2.threads[0]? = some q) (x : Out Unit) (hx : IsAt q x) :
    ∃ whole part fe, Heard C o st p2.st whole part fe ∧ ListenShows C env fe p2.st x ∧
      whole.length + p1.st.inp.bytes.length ≤ st.inp.bytes.length := by
  have hb : ∃ q v, b.threads[0]? = some q ∧ Going C env o (startView st) none q b.st v := by
    have hi := (ListenInv.start (h := h) hin hoth).steps henv hB rfl hs0
    cases hs1 with
    | @mk ts st1 ac k r st' hi' he =>
      obtain ⟨q, hq, hph⟩ := hi.first
      have hlen : 0 < ts.length := by
        cases ts with
        | nil => cases hi'
        | cons => simp
      rw [show ts[0]? = some q from hq] at hi'
      injection hi' with hi'
      subst hi'
      cases hph with
      | before _ hql h1 h2 h3 h4 =>
        obtain ⟨v, hv⟩ := listenT_starts henv hB hql.symm he rfl h1 h2 h3 h4
        exact ⟨k r, v, by simp [hlen], hv⟩
      | going v hv =>
        obtain ⟨v', hv'⟩ := hv.own he
        exact ⟨k r, v', by simp [hlen], hv'⟩
  have hab : Pool.Step env a b := by cases hs1 with | mk h1 h2 => exact .mk h1 h2
  have hib := ((ListenInv.start (h := h) hin hoth).steps henv hB rfl hs0).step henv hB rfl hab
  -- thread 0 stays in `listen`
  have stay : ∀ c, Pool.Steps env b c → ∃ q v, c.threads[0]? = some q ∧ Going C env o (startView st) none q c.st v ∧
      ∀ i q, c.threads[i + 1]? = some q → By C q fun _ => True := by
    intro c hc
    induction hc with
    | refl =>
      obtain ⟨q, v, h1, h2⟩ := hb
      exact ⟨q, v, h1, h2, hib.others⟩
    | @tail c d hbc hs ih =>
      obtain ⟨q, v, h1, h2, h3⟩ := ih
      have hinv : ListenInv C env o (startView st) (listenT env fuel h) none d := ListenInv.step henv hB rfl ⟨⟨q, h1, .going v h2⟩, h3⟩ hs
      refine (?_ : ∃ q v, d.threads[0]? = some q ∧ Going C env o (startView st) none q d.st v).elim fun q' ⟨v', e1, e2⟩ => ⟨q', v', e1, e2, hinv.others⟩
      cases hs with
      | @mk ts st1 i ac k r st' hi' he =>
        cases i with
        | zero =>
          have hlen : 0 < ts.length := by
            cases ts with
            | nil => cases hi'
            | cons => simp
          rw [show ts[0]? = some q from h1] at hi'
          injection hi' with hi'
          subst hi'
          obtain ⟨v', hv'⟩ := h2.own he
          exact ⟨k r, v', by simp [hlen], hv'⟩
        | succ i =>
          obtain ⟨v', hv'⟩ := h2.other (h3 i _ hi').1 he
          refine ⟨q, v', ?_, hv'⟩
          show (ts.set (i + 1) (k r))[0]? = _
          rw [List.getElem?_set_ne (by omega)]; exact h1
  obtain ⟨q1, v1, e1, e2, e3⟩ := stay p1 hs2
  have hv1 : ∃ n, v1.off = some n := by
    have := e2.sees.listening
    rw [hoff] at this
    cases hv : v1.off with
    | none => rw [hv] at this; cases this
    | some n => exact ⟨n, rfl⟩
  obtain ⟨n, hn⟩ := hv1
  have hg : Going C env o (startView st) (some n) q1 p1.st v1 := ⟨e2.sees, e2.wp, e2.left, fun m hm => by injection hm with hm; subst hm; exact hn⟩
  obtain ⟨q', hq', hph⟩ := (ListenInv.steps (h := h) (fuel := fuel) henv hB rfl ⟨⟨q1, e1, .going v1 hg⟩, e3⟩ hs3).first
  rw [hq] at hq'
  injection hq' with hq'
  subst hq'
  cases hph with
  | before hn => cases hn
  | going v hv =>
    obtain ⟨whole, part, fe, g1, g2, g3⟩ := hv.heard hx
    refine ⟨whole, part, fe, g1, g2, ?_⟩
    have := g3 n rfl
    have := e2.left n hn
    rw [e2.sees.bytes]
    omega

/-- **C60** (an early stop is lost). A stop before `listen` has made its first step has no effect on it: as `listen` begins, listening is on
again, whatever was set before. -/
theorem C60_early_stop_is_lost (env : Env) (fuel : Nat) (h : Header) (st : St) (others : List (Prog Unit)) (p : Pool)
    (hs : Pool.StepOf env 0 ⟨listenT env fuel h :: others, st⟩ p) :
    p.st = { st with sock := { st.sock with listening := true } } ∧
    Pool.StepOf env 0 ⟨listenT env fuel h :: others, { st with sock := { st.sock with listening := false } }⟩ p := by
  cases hs with
  | @mk ts st1 a k r st' h1 h2 =>
    have h1 : some (Prog.act (.setListening true) (fun _ => catching (listenLoopT env fuel fuel h) fun _ => .ret ())) = some (.act a k) := h1
    injection h1 with h1
    injection h1 with ha hk
    subst ha
    have hk := eq_of_heq hk
    subst hk
    injection h2 with h2
    injection h2 with _ h2
    subst h2
    exact ⟨rfl, Pool.StepOf.mk (a := .setListening true) (k := fun _ => catching (listenLoopT env fuel fuel h) fun _ => .ret ()) (r := r) rfl rfl⟩

/-! ## Concrete executions -/

theorem execLog_steps_from {env : Env} {p0 : Pool} : ∀ (is : List Nat) (p : Pool) (log : List Entry) (q : Pool),
    Pool.Steps env p0 p → Pool.execLog env is p = some (log, q) → Pool.Steps env p0 q := by
  intro is
  induction is with
  | nil =>
    intro p log q h0 h
    injection h with h; injection h with h h'; subst h h'
    exact h0
  | cons i is ih =>
    intro p log q h0 h
    rw [Pool.execLog.eq_def] at h
    simp only at h
    split at h
    · rename_i a k e
      split at h
      · cases h
      · rename_i r st' e2
        split at h
        · rename_i log' q' e3
          injection h with h; injection h with h h'; subst h h'
          exact ih _ _ _ (.tail h0 (.mk e e2)) e3
        · cases h
    · cases h

/-- What is seen of a pool. -/
structure PoolView where
  left : List UInt8
  trace : List Event
  written : List UInt8
  listening : Bool
  place : Nat              -- of thread 0
deriving DecidableEq

def placeOf : Option (Prog Unit) → Nat
  | some (.ret _) => 0
  | some (.act (.read _) _) => 1
  | some (.act (.write _) _) => 2
  | some (.act _ _) => 3
  | _ => 4

theorem placeOf_ret {q? : Option (Prog Unit)} (h : placeOf q? = 0) : q? = some (.ret ()) := by
  unfold placeOf at h
  split at h <;> first | rfl | cases h

theorem placeOf_read {q? : Option (Prog Unit)} (h : placeOf q? = 1) : ∃ q, q? = some q ∧ IsAt q .reading := by
  unfold placeOf at h
  split at h <;> first | exact ⟨_, rfl, rfl⟩ | cases h

def viewOf (r : Option (List Entry × Pool)) : Option PoolView :=
  r.map fun (_, q) => ⟨q.st.inp.bytes, q.st.sock.trace, q.st.sock.out.written, q.st.sock.listening, placeOf q.threads[0]?⟩

/-- Rules of the example: listener 7 or 8, buffer of 2 bytes, reads do not fail. -/
def exRules : Rules := ⟨fun l => l = 7 ∨ l = 8, 2, fun o => o.fine = true⟩

/-- A ping, then a text message; a thread that listens, one that sends a text, one that replaces the listener and stops listening. -/
def exListening : Pool := ⟨[listenT Fixture.env 40 default, userOpsT Fixture.env 40 [.send (.text (some [7, 8])) false],
    userOpsT Fixture.env 40 [.setListener (some 8), .stopListening]],
  { sock := { Sock.new { readBufferSize := 2 } ⟨[], Fixture.slow 30⟩ with listener := some 7 }
    inp := ⟨[0x89, 0x01, 0x21, 0x81, 0x02, 0x48, 0x69, 0x89, 0x00], Fixture.slow 10⟩ }⟩

theorem exListening_reacts : exRules.Reacts Fixture.env := fun _ _ h => (by cases h)

theorem exListening_in : exRules.In false exListening.st :=
  ⟨⟨7, rfl, .inl rfl⟩, rfl, fun x hx => List.all_eq_true.mp (by decide : exListening.st.inp.sched.all IoOutcome.fine = true) x hx, rfl⟩

theorem exListening_helpers : ∀ q ∈ exListening.threads.tail, exRules.Helper Fixture.env 40 q := by
  intro q hq
  simp only [exListening, List.tail_cons, List.mem_cons, List.not_mem_nil, or_false] at hq
  rcases hq with rfl | rfl
  · exact .code _ (by
      intro op hop
      simp only [List.mem_cons, List.not_mem_nil, or_false] at hop
      subst hop; trivial)
  · exact .code _ (by
      intro op hop
      simp only [List.mem_cons, List.not_mem_nil, or_false] at hop
      rcases hop with rfl | rfl
      · exact ⟨8, rfl, .inr rfl⟩
      · trivial)

theorem viewOf_some {r : Option (List Entry × Pool)} {v} (h : viewOf r = some v) : ∃ log q, r = some (log, q) ∧ q.st.inp.bytes = v.left ∧
    q.st.sock.trace = v.trace ∧ q.st.sock.out.written = v.written ∧ q.st.sock.listening = v.listening ∧ placeOf q.threads[0]? = v.place := by
  rcases r with _ | ⟨log, q⟩
  · cases h
  · injection h with h
    subst h
    exact ⟨log, q, rfl, rfl, rfl, rfl, rfl, rfl⟩

/-- Steps of all three threads; the listener is replaced in the middle of the text message, which is a message to two listeners. -/
def exTurns1 : List Nat := [0, 0, 0] ++ List.replicate 6 1 ++ List.replicate 23 0 ++ [2] ++ [1, 1, 1, 1] ++ List.replicate 10 0

theorem exRun1 : viewOf (Pool.execLog Fixture.env exTurns1 exListening) =
    some ⟨[0x89, 0x00], [.onPing 7 [0x21], .readMessage 7 1 [0x48], .readMessage 8 1 [0x69], .readMessage 8 1 []], [0x81, 2, 7, 8], true, 1⟩ := by
  decide +kernel

/-- The hypotheses of `C59_reception` are met: here the listening thread waits for the third frame. -/
example : ∃ p q, Pool.Steps Fixture.env exListening p ∧ exRules.Reacts Fixture.env ∧ 0 < exRules.size ∧ exRules.In false exListening.st ∧
    (∀ q ∈ exListening.threads.tail, exRules.Helper Fixture.env 40 q) ∧ p.threads[0]? = some q ∧ IsAt q .reading ∧
    p.st.sock.trace = [.onPing 7 [0x21], .readMessage 7 1 [0x48], .readMessage 8 1 [0x69], .readMessage 8 1 []] ∧ p.st.inp.bytes = [0x89, 0x00] := by
  obtain ⟨log, p, e, h1, h2, h3, h4, h5⟩ := viewOf_some exRun1
  obtain ⟨q, e1, e2⟩ := placeOf_read h5
  exact ⟨p, q, execLog_steps_from _ _ _ _ .refl e, exListening_reacts, by decide, exListening_in, exListening_helpers, e1, e2, h2, h1⟩

/-- Only one listener; a thread that listens, a thread that sends. -/
def exHeard : Pool := ⟨exListening.threads.take 2, exListening.st⟩

theorem exRun2 : viewOf (Pool.execLog Fixture.env ([0, 0, 0] ++ List.replicate 6 1 ++ List.replicate 23 0 ++ [1, 1, 1, 1] ++ List.replicate 19 0) exHeard) =
    some ⟨[], [.onPing 7 [0x21], .readMessage 7 1 [0x48], .readMessage 7 1 [0x69], .readMessage 7 1 [], .onPing 7 []], [0x81, 2, 7, 8], true, 0⟩ := by
  decide +kernel

/-- The hypotheses of `C59_frames_heard` are met (and its conclusion used). -/
example : ∃ p : Pool, Pool.Steps Fixture.env exHeard p ∧ p.threads[0]? = some (.ret ()) ∧ p.st.sock.listening = true ∧
    ∃ evs, p.st.sock.trace = evs ∧ FramesEvents 7 2 [⟨true, false, false, false, 9, none, [0x21]⟩, ⟨true, false, false, false, 1, none, [0x48, 0x69]⟩,
      ⟨true, false, false, false, 9, none, []⟩] evs := by
  obtain ⟨log, p, e, h1, h2, h3, h4, h5⟩ := viewOf_some exRun2
  have hs := execLog_steps_from _ _ _ _ .refl e
  refine ⟨p, hs, placeOf_ret h5, h4, ?_⟩
  have hC : ∀ o, (⟨(· = 7), 2, fun o => o.fine = true⟩ : Rules).outcome o → o.fine = true := fun o h => h
  obtain ⟨evs, evs', g1, g2, g3⟩ := C59_frames_heard ⟨(· = 7), 2, fun o => o.fine = true⟩ Fixture.env false false 40 default exListening.st
    [userOpsT Fixture.env 40 [.send (.text (some [7, 8])) false]] p 7 (fun _ _ h => (by cases h)) (by decide)
    ⟨⟨7, rfl, rfl⟩, rfl, exListening_in.sched, rfl⟩
    (by
      intro q hq
      simp only [List.mem_cons, List.not_mem_nil, or_false] at hq
      subst hq
      exact .code _ (by
        intro op hop
        simp only [List.mem_cons, List.not_mem_nil, or_false] at hop
        subst hop; trivial))
    rfl (fun _ _ h => (by cases h)) hC hs (placeOf_ret h5) h4
    [⟨true, false, false, false, 9, none, [0x21]⟩, ⟨true, false, false, false, 1, none, [0x48, 0x69]⟩, ⟨true, false, false, false, 9, none, []⟩] []
    (by
      refine .cons ⟨(by decide), (fun _ h => (by cases h)), (by decide)⟩ (by unfold Accepted isDataOpcode isControlOpcode mayStart; decide) (by decide)
        (.cons ⟨(by decide), (fun _ h => (by cases h)), (by decide)⟩ (by unfold Accepted isDataOpcode isControlOpcode mayStart; decide) (by decide)
          (.cons ⟨(by decide), (fun _ h => (by cases h)), (by decide)⟩ (by unfold Accepted isDataOpcode isControlOpcode mayStart; decide) (by decide) .nil)))
    rfl
  obtain ⟨rfl, _⟩ := g3 rfl
  exact ⟨evs, by rw [g1]; simp [exListening, Sock.new], g2⟩

/-- Listening is stopped by the third thread in the middle of the text message. -/
def exStop : Option (PoolView × PoolView) :=
  match Pool.execLog Fixture.env [0] exListening with
  | some (_, b) =>
    match Pool.execLog Fixture.env (List.replicate 23 0 ++ [2, 2]) b with
    | some (l, p1) =>
      match viewOf (some (l, p1)), viewOf (Pool.execLog Fixture.env (List.replicate 11 0) p1) with
      | some v1, some v2 => some (v1, v2)
      | _, _ => none
    | none => none
  | none => none

theorem exStopRun : exStop = some (⟨[0x69, 0x89, 0x00], [.onPing 7 [0x21]], [], false, 3⟩,
    ⟨[0x89, 0x00], [.onPing 7 [0x21], .readMessage 8 1 [0x48], .readMessage 8 1 [0x69], .readMessage 8 1 []], [], false, 0⟩) := by
  decide +kernel

/-- The hypotheses of `C60_stopped` are met: the message in progress is heard to its end, the ping behind it is not read. -/
example : ∃ b p1 p2 : Pool, Pool.StepOf Fixture.env 0 exListening b ∧ Pool.Steps Fixture.env b p1 ∧ p1.st.sock.listening = false ∧ p1.st.inp.bytes = [0x69, 0x89, 0x00] ∧
    Pool.Steps Fixture.env p1 p2 ∧ p2.threads[0]? = some (.ret ()) ∧ p2.st.inp.bytes = [0x89, 0x00] := by
  have h := exStopRun
  unfold exStop at h
  split at h
  · rename_i l0 b e0
    split at h
    · rename_i l1 p1 e1
      split at h
      · rename_i v1 v2 e2 e3
        injection h with h
        injection h with h1 h2
        subst h1 h2
        obtain ⟨log, p1', e, g1, g2, g3, g4, g5⟩ := viewOf_some e2
        injection e with e
        injection e with _ e
        subst e
        obtain ⟨log, p2, e, k1, k2, k3, k4, k5⟩ := viewOf_some e3
        refine ⟨b, p1, p2, ?_, execLog_steps_from _ _ _ _ .refl e1, g4, g1, execLog_steps_from _ _ _ _ .refl e, placeOf_ret k5, k1⟩
        rw [Pool.execLog.eq_def] at e0
        simp only at e0
        split at e0
        · rename_i a k e4
          split at e0
          · cases e0
          · rename_i r st' e5
            rw [Pool.execLog.eq_def] at e0
            simp only at e0
            injection e0 with e0
            injection e0 with _ e0
            rw [← e0]
            exact .mk e4 e5
        · cases e0
      · cases h
    · cases h
  · cases h

end OatWS.Threads
