import Verif.Props.Polling
import Verif.Props.ThreadListen
/-! # C91: `iterateFrame` in one thread, while other threads use the socket -/

namespace OatWS.Threads
open RFC6455 Async Prog

/-- A thread that calls `iterateFrame` `n` times, with the same header object, and ends. -/
def pollsT (env : Env) (fuel : Nat) : Nat → Header → Prog Unit
  | 0, _ => .ret ()
  | n + 1, h => Prog.andThen (iterateFrameT env fuel h) fun h' => pollsT env fuel n h'

/-- What is known of a polling thread: when it has ended it has heard the frames and read no byte behind them; if reads do not fail and callbacks do not throw, no call throws. -/
def Polled (C : Rules) (env : Env) (l B : Nat) (fs : List Frame) (tail : List UInt8) (v0 : View) (x : Out Unit) (w : View) : Prop :=
  (x = .ret () → w.bytes = tail ∧ ∃ evs, w.trace = v0.trace ++ evs ∧ FramesEvents l B fs evs) ∧ (C.Fine → env.Calm → ∀ e, x ≠ .throw e)

theorem Polled.lower {C : Rules} {env : Env} {l B : Nat} {fs : List Frame} {tail : List UInt8} {v0 : View} {x : Out Unit} {w : View} (h : Polled C env l B fs tail v0 x w) :
    Polled C env l B fs tail v0 x w.lower := h

theorem pollsT_wp (C : Rules) (env : Env) (l B : Nat) (hl : C.listener = (· = l)) (hB : C.size = B) (hpos : 0 < B) (henv : C.Reacts env) (fuel : Nat) (o o' : Bool) (fs : List Frame) (hf : AcceptedAll o fs o')
    (tail : List UInt8) (h : Header) (v : View) (ho : OpenIs o v.last) (hb : v.bytes = wireOf fs ++ tail) :
    Wp C (pollsT env fuel fs.length h) v (Polled C env l B fs tail v) := by
  induction hf generalizing h v with
  | nil => exact ⟨fun _ => ⟨hb, [], by simp, rfl⟩, fun _ _ _ hx => (by cases hx)⟩
  | @cons o f fs o' hv hacc h8 _ ih =>
    rw [wireOf_cons, List.append_assoc] at hb
    refine Wp.andThen (Wp.mono (iterateFrameT_handles C env henv (by omega) fuel h v o ho) ?_)
    rintro x w ⟨k, ds, fe, evs, ha, hone, hr, hout⟩
    have hi := interpretFrame_accepted o f hv hacc (wireOf fs ++ tail)
    rw [← hb, if_neg h8] at hi
    have hdet : fe ≠ .over .interrupted → (fe = .over .incomplete → v.bytes.take k = v.bytes) → v.bytes.take k = f.encode ∧ ds = frameDeliveries f ∧ fe = .next (openAfterFrame o f) := by
      intro h1 h2
      have := oneFrame_interpret hone (List.take_prefix _ _) h1 h2
      rw [hi] at this
      injection this with a b
      injection b with b c
      exact ⟨a, b, c⟩
    have bad : ∀ {r}, fe = .over r → r ≠ .interrupted → r ≠ .incomplete → False := by
      intro r hfe h1 h2
      have := (hdet (by rw [hfe]; intro h; injection h with h; exact h1 h) (by rw [hfe]; intro h; injection h with h; exact absurd h h2)).2.2
      rw [hfe] at this
      cases this
    cases fe with
    | next o2 =>
      obtain ⟨⟨h', rfl, _⟩, ho2⟩ := hout
      obtain ⟨e1, e2, e3⟩ := hdet (by intro h; cases h) (by intro h; cases h)
      injection e3 with e3
      subst e3
      have hwb : w.bytes = wireOf fs ++ tail := by
        have h1 : v.bytes.take k ++ w.bytes = f.encode ++ (wireOf fs ++ tail) := by rw [ha.bytes, List.take_append_drop, hb]
        rw [e1] at h1
        exact List.append_cancel_left h1
      refine Wp.mono (ih h' w ho2 hwb) ?_
      rintro x z ⟨g1, g2⟩
      refine ⟨fun hx => ?_, g2⟩
      obtain ⟨k1, evs2, k2, k3⟩ := g1 hx
      rw [hl, hB, e2] at hr
      exact ⟨k1, evs ++ evs2, by rw [k2, ha.trace, List.append_assoc], evs, evs2, rfl, Renders.frame hacc hr.renders, k3⟩
    | over r =>
      cases r with
      | closed => exact (bad rfl (by intro h; cases h) (by intro h; cases h)).elim
      | stopped => exact hout.elim
      | incomplete =>
        rcases hout with rfl | ⟨e, _, rfl, hw⟩
        · exact ⟨fun hx => (by cases hx), fun _ _ _ hx => (by cases hx)⟩
        · refine ⟨fun hx => (by cases hx), fun hfine _ _ _ => ?_⟩
          have hfull : v.bytes.take k = v.bytes := by
            have := hw hfine
            rw [ha.bytes, List.drop_eq_nil_iff] at this
            exact List.take_of_length_le this
          have := (hdet (by intro h; cases h) (fun _ => hfull)).2.2
          cases this
      | badControl => exact (bad rfl (by intro h; cases h) (by intro h; cases h)).elim
      | badContinuation => exact (bad rfl (by intro h; cases h) (by intro h; cases h)).elim
      | badStart => exact (bad rfl (by intro h; cases h) (by intro h; cases h)).elim
      | badOpcode => exact (bad rfl (by intro h; cases h) (by intro h; cases h)).elim
      | interrupted =>
        rcases hout with rfl | ⟨hc, ⟨e, rfl⟩ | rfl⟩
        · exact ⟨fun hx => (by cases hx), fun _ _ _ hx => (by cases hx)⟩
        · exact ⟨fun hx => (by cases hx), fun _ hcalm => absurd hcalm hc⟩
        · exact ⟨fun hx => (by cases hx), fun _ _ _ hx => (by cases hx)⟩

/-- The first thread's program keeps to `Q`, the others do not disturb it. -/
structure WpInv (C : Rules) (Q : Out Unit → View → Prop) (p : Pool) : Prop where
  first : ∃ q v, p.threads[0]? = some q ∧ Sees C p.st v ∧ Wp C q v Q
  others : ∀ i q, p.threads[i + 1]? = some q → By C q fun _ => True

theorem WpInv.step {C : Rules} {env : Env} {Q : Out Unit → View → Prop} (hQ : ∀ x w, Q x w → Q x w.lower) {p p' : Pool} (hi : WpInv C Q p) (hs : Pool.Step env p p') : WpInv C Q p' := by
  cases hs with
  | @mk ts st i a k r st' hi' he =>
    obtain ⟨q, v, hq, hsee, hwp⟩ := hi.first
    have hlen : i < ts.length := by
      by_cases hc : i < ts.length
      · exact hc
      · rw [List.getElem?_eq_none (by omega)] at hi'; cases hi'
    cases i with
    | zero =>
      rw [show ts[0]? = some q from hq] at hi'
      injection hi' with hi'
      subst hi'
      obtain ⟨h1, h2, h3, h4⟩ := hwp
      obtain ⟨v', hd, hs⟩ := exec_does hsee h1 he
      refine ⟨⟨k r, v', by simp [hlen], hs, h4 v (.inl rfl) r v' hd⟩, ?_⟩
      intro j q' hq'
      have : (ts.set 0 (k r))[j + 1]? = ts[j + 1]? := by rw [List.getElem?_set_ne (by omega)]
      exact hi.others j q' (by rw [← this]; exact hq')
    | succ i =>
      have hby := hi.others i _ hi'
      refine ⟨?_, ?_⟩
      · have h0 : (ts.set (i + 1) (k r))[0]? = some q := by rw [List.getElem?_set_ne (by omega)]; exact hq
        rcases exec_side hsee hby.1 he with h1 | h1
        · exact ⟨q, v, h0, h1, hwp⟩
        · exact ⟨q, v.lower, h0, h1, hwp.lower hQ⟩
      · intro j q' hq'
        by_cases hj : i = j
        · subst hj
          have : (ts.set (i + 1) (k r))[i + 1]? = some (k r) := by simp [hlen]
          rw [show (ts.set (i + 1) (k r))[i + 1]? = some q' from hq'] at this
          injection this with this
          subst this
          exact hby.2 r
        · have : (ts.set (i + 1) (k r))[j + 1]? = ts[j + 1]? := by rw [List.getElem?_set_ne (by omega)]
          exact hi.others j q' (by rw [← this]; exact hq')

theorem WpInv.steps {C : Rules} {env : Env} {Q : Out Unit → View → Prop} (hQ : ∀ x w, Q x w → Q x w.lower) {p p' : Pool} (hi : WpInv C Q p) (hs : Pool.Steps env p p') : WpInv C Q p' := by
  induction hs with
  | refl => exact hi
  | tail _ hs ih => exact ih.step hQ hs

/-- **C91** (among threads). One thread calls `iterateFrame` once for each of some acceptable frames (no close among them), in a loop; any number of other threads send, call `stopListening` and change whether to mask, and so do callbacks; all in any order. When
the loop is over, exactly these frames have been heard, in order, and no byte behind them was read. If reads do not fail and callbacks do not throw, none of the calls throws. -/
theorem C91_among_threads (env : Env) (fuel l B : Nat) (reads : IoOutcome → Prop) (o o' : Bool) (fs : List Frame) (tail : List UInt8) (h : Header) (st : St) (others : List (Prog Unit)) (p : Pool)
    (hB : 0 < B) (henv : Rules.Reacts ⟨(· = l), B, reads⟩ env) (hin : Rules.In ⟨(· = l), B, reads⟩ o st) (hoth : ∀ q ∈ others, Rules.Helper ⟨(· = l), B, reads⟩ env fuel q) (hf : AcceptedAll o fs o')
    (hb : st.inp.bytes = wireOf fs ++ tail) (hs : Pool.Steps env ⟨pollsT env fuel fs.length h :: others, st⟩ p) :
    (p.threads[0]? = some (.ret ()) → p.st.inp.bytes = tail ∧ ∃ evs, p.st.sock.trace = st.sock.trace ++ evs ∧ FramesEvents l B fs evs) ∧
    ((∀ x, reads x → x.fine = true) → env.Calm → ∀ e, p.threads[0]? ≠ some (.throw e)) := by
  have hsee : ∃ off : Option Nat, Sees ⟨(· = l), B, reads⟩ st ⟨st.inp.bytes, st.sock.trace, st.sock.lastOpcode, off⟩ := by
    cases hl : st.sock.listening with
    | true => exact ⟨none, rfl, rfl, rfl, hl, hin.size, hin.listener, hin.sched⟩
    | false => exact ⟨some 0, rfl, rfl, rfl, hl, hin.size, hin.listener, hin.sched⟩
  obtain ⟨off, hsee⟩ := hsee
  have hinv : WpInv ⟨(· = l), B, reads⟩ (Polled ⟨(· = l), B, reads⟩ env l B fs tail ⟨st.inp.bytes, st.sock.trace, st.sock.lastOpcode, off⟩) ⟨pollsT env fuel fs.length h :: others, st⟩ := by
    refine ⟨⟨_, _, rfl, hsee, pollsT_wp _ env l B rfl rfl hB henv fuel o o' fs hf tail h _ hin.opened hb⟩, ?_⟩
    intro i q hq
    exact by_helper (hoth q (List.mem_of_getElem? hq))
  obtain ⟨q, v, hq, hsee2, hwp⟩ := (hinv.steps (fun x w hx => hx.lower) hs).first
  constructor
  · intro h0
    rw [hq] at h0
    injection h0 with h0
    subst h0
    obtain ⟨k1, evs, k2, k3⟩ := (Wp.isAt hwp (x := .ret ()) rfl).1 rfl
    exact ⟨hsee2.bytes.trans k1, evs, hsee2.trace.trans k2, k3⟩
  · intro hr hc e h0
    rw [hq] at h0
    injection h0 with h0
    subst h0
    exact (Wp.isAt hwp (x := .throw e) rfl).2 hr hc e rfl

/-! ## A concrete case: "Hel", ping and "lo" are polled, while another thread sends a text and calls `stopListening` -/

def exPoller : Pool := ⟨[pollsT Fixture.env 100 3 default, userOpsT Fixture.env 100 [.send (.text (some [7, 8])) true, .stopListening]],
  { sock := { Sock.new { readBufferSize := 2, maskOutgoingMessages := true } ⟨[], Fixture.slow 30⟩ with listener := some 1 }, inp := ⟨wireOf [Fixture.hel, Fixture.ping, Fixture.lo] ++ [0x81], Fixture.slow 60⟩ }⟩

theorem exPoller_run : viewOf (Pool.execLog Fixture.env (List.replicate 20 0 ++ List.replicate 21 1 ++ List.replicate 60 0) exPoller) =
    some ⟨[0x81], [.readMessage 1 1 [72], .readMessage 1 1 [101], .readMessage 1 1 [108], .onPing 1 [33], .readMessage 1 0 [108], .readMessage 1 0 [111], .readMessage 1 0 []],
      [129, 130, 3, 20, 37, 54, 4, 28], false, 0⟩ := by
  decide +kernel

theorem exPoller_accepted : AcceptedAll false [Fixture.hel, Fixture.ping, Fixture.lo] true := by
  refine .cons ⟨by decide, ?_, by decide⟩ (.inl ⟨.inr (.inl rfl), rfl⟩) (by decide) (.cons ⟨by decide, ?_, by decide⟩ (.inr ⟨.inr (.inl rfl), by decide⟩) (by decide)
    (.cons ⟨by decide, ?_, by decide⟩ (.inl ⟨.inl rfl, rfl⟩) (by decide) .nil))
  all_goals (intro k hk; first | (injection hk with hk; rw [← hk]; rfl) | cases hk)

/-- The hypotheses of `C91_among_threads` are met (and its conclusion used): the three calls return, and the byte behind the frames is left. -/
example : ∃ p : Pool, Pool.Steps Fixture.env exPoller p ∧ p.threads[0]? = some (.ret ()) ∧ p.st.sock.listening = false ∧ p.st.inp.bytes = [0x81] ∧
    ∃ evs, p.st.sock.trace = evs ∧ FramesEvents 1 2 [Fixture.hel, Fixture.ping, Fixture.lo] evs := by
  obtain ⟨log, p, e, h1, h2, h3, h4, h5⟩ := viewOf_some exPoller_run
  have hs := execLog_steps_from _ _ _ _ .refl e
  obtain ⟨g1, evs, g2, g3⟩ := (C91_among_threads Fixture.env 100 1 2 (fun o => o.fine = true) false true [Fixture.hel, Fixture.ping, Fixture.lo] [0x81] default exPoller.st
    exPoller.threads.tail p (by decide) (fun _ _ h => (by cases h)) ⟨⟨1, rfl, rfl⟩, rfl, fun x hx => List.all_eq_true.mp (by decide +kernel : exPoller.st.inp.sched.all IoOutcome.fine = true) x hx, rfl⟩
    (by
      intro q hq
      simp only [exPoller, List.tail_cons, List.mem_cons, List.not_mem_nil, or_false] at hq
      subst hq
      exact .code _ (by
        intro op hop
        simp only [List.mem_cons, List.not_mem_nil, or_false] at hop
        rcases hop with rfl | rfl <;> trivial))
    exPoller_accepted rfl hs).1 (placeOf_ret h5)
  exact ⟨p, hs, placeOf_ret h5, h4, g1, evs, by rw [g2]; rfl, g3⟩

end OatWS.Threads
