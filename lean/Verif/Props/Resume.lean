import Verif.Proofs.Resume
import Verif.Proofs.ResumeSends
import Verif.Props.Answers
import Verif.Props.Flow
/-! # C54: stopping and resuming loses nothing -/

namespace OatWS
open RFC6455

/-- **C54.** Listening with interruptions, where the listener stops as often as it likes and `listen` is called again each time: in the end
the outcome is the same, the same callbacks were made in the same order, the same bytes consumed and the socket is in the same
state (but for the listening flag) as after one call of `listen` with the same listener without its stops. -/
theorem C54_stop_and_resume (env : Env) (hn : env.NoSends) (st : St) (x : Exit Unit) (st' : St) (hs : Session env st x st') (h : Header) :
    listenBody env.nonstop h st = (x, { st' with sock := { st'.sock with listening := true } }) := by
  induction hs with
  | @last g st x st' e hno =>
    have e1 : listenBody env.nonstop h st = listenLoop env.nonstop (st.inp.sched.length + 1) g st.on := listenLoop_stale env.nonstop _ g h st.on
    have := nostop_same hn (st.inp.sched.length + 1) g st.on hno
    have e2 : listenLoop env (st.inp.sched.length + 1) g st.on = (x, st') := e
    rw [e2] at this
    rw [e1]
    exact this
  | @again g st st1 x st' e hstop _ ih =>
    rw [← ih]
    have := hstop.nonstop hn h (st.inp.sched.length + 1) (Nat.lt_succ_self _)
    rw [← this]
    exact listenLoop_stale env.nonstop _ g h st.on

/-- In particular the callbacks, and what is left unread. -/
theorem C54_callbacks (env : Env) (hn : env.NoSends) (st : St) (x : Exit Unit) (st' : St) (hs : Session env st x st') (h : Header) :
    st'.sock.trace = (listen env.nonstop h st).2.sock.trace ∧ st'.inp = (listen env.nonstop h st).2.inp := by
  rw [listen_eq, C54_stop_and_resume env hn st x st' hs h]
  cases x <;> exact ⟨rfl, rfl⟩

/-- There is such a session for every listener and connection: it cannot be stopped forever. -/
theorem C54_session_exists (env : Env) (h : Header) (st : St) : ∃ x st', Session env st x st' := by
  generalize hn : st.inp.sched.length = n
  induction n using Nat.strongRecOn generalizing st with
  | _ n ih =>
    by_cases hs : ∃ st1, StopsAt env h st.on st1
    · obtain ⟨st1, hs⟩ := hs
      have hlt : st1.inp.sched.length < st.inp.sched.length := hs.shorter
      obtain ⟨x, st', hS⟩ := ih st1.inp.sched.length (by omega) st1 rfl
      exact ⟨x, st', .again (hs.ends _ (Nat.lt_succ_self _)) hs hS⟩
    · rcases he : listenBody env h st with ⟨x, st'⟩
      exact ⟨x, st', .last he (fun st1 h1 => hs ⟨st1, h1⟩)⟩

/-- A listener that stops at its second callback (inside the first frame): the session has two calls of `listen`, and hears everything. -/
example : ∃ x st', Session Fixture.stopper (Fixture.receiving (wireOf [Fixture.hel, Fixture.ping, Fixture.lo])) x st' ∧
    st'.sock.trace = [.readMessage 7 1 [0x48], .readMessage 7 1 [0x65], .readMessage 7 1 [0x6c], .onPing 7 [0x21],
     .readMessage 7 0 [0x6c], .readMessage 7 0 [0x6f], .readMessage 7 0 []] := by
  obtain ⟨x, st', hs⟩ := C54_session_exists Fixture.stopper default (Fixture.receiving (wireOf [Fixture.hel, Fixture.ping, Fixture.lo]))
  refine ⟨x, st', hs, ?_⟩
  rw [(C54_callbacks Fixture.stopper ?_ _ x st' hs default).1]
  · decide +kernel
  · intro tr c b
    show _ ∉ (if tr.length = 2 then [UserOp.stopListening] else [])
    split <;> simp

/-- The first of these calls is ended by the stop. -/
example : (listen Fixture.stopper default (Fixture.receiving (wireOf [Fixture.hel, Fixture.ping, Fixture.lo]))).2.sock.trace =
    [.readMessage 7 1 [0x48], .readMessage 7 1 [0x65], .readMessage 7 1 [0x6c]] := by decide +kernel

/-- **C54** with a listener that also sends (less than 2^31 bytes at once; it keeps listener and configuration, may stop and throw):
run the same listener without its sends and without its stops, in one call of `listen`. As long as the writes do not fail, every
session of the real listener, stopped and resumed, ends with the same outcome, has made the same callbacks, consumed the same bytes and
left the same socket state, and has written exactly the frames of its sends, in the order made. -/
theorem C54_with_sends (env : Env) (ht : env.Tame) (hs : env.SmallSends) (h : Header) (st : St) :
    ∃ evs x st0, listenBody env.silent.nonstop h st = (x, st0) ∧ st0.sock.trace = st.sock.trace ++ evs ∧
      (Healthy (answerBytes env st.sock evs).length st.sock.out.sched → ∀ x' st', Session env st x' st' →
        x' = x ∧ st'.inp = st0.inp ∧ st'.sock.trace = st0.sock.trace ∧
        st'.sock = { st0.sock with out := st'.sock.out, rngPos := st'.sock.rngPos, listening := st'.sock.listening } ∧
        st'.sock.out.written = st.sock.out.written ++ answerBytes env st.sock evs) := by
  obtain ⟨x0, st0', h0⟩ := C54_session_exists env.silent h st
  have hno : env.silent.NoSends := by
    intro tr c b hm
    have := (List.mem_filter.mp hm).2
    cases this
  obtain ⟨evs, htr, hh⟩ := session_two ht hs h h0 st (.refl _) rfl
  refine ⟨evs, x0, _, C54_stop_and_resume env.silent hno st x0 st0' h0 h, htr, fun hw x' st' hS => ?_⟩
  obtain ⟨g1, g2, g3, g4⟩ := hh hw x' st' hS
  refine ⟨g1, g3, g2.trace, ?_, g4.written⟩
  have hl := g2.listening
  unfold Alike at g2
  obtain ⟨⟨c, l, o, b, w, r, t⟩, i⟩ := st'
  obtain ⟨⟨c', l', o', b', w', r', t'⟩, i'⟩ := st0'
  injection g2 with e1 e2 e3 e4 e5 e6 e7
  subst e1 e2 e3 e4 e7
  rfl

/-- A listener that at each callback sends a ping and stops. -/
def exStopAndPing : Env := { Fixture.env with react := fun _ => [.send (.ping (some [0x70])) false, .stopListening] }

/-- On three frames: all is heard, and seven pings are written. -/
example (x' st') (hS : Session exStopAndPing { Fixture.receiving (wireOf [Fixture.hel, Fixture.ping, Fixture.lo]) with
      sock := { (Fixture.receiving []).sock with out := ⟨[], List.replicate 100 (.upTo 9)⟩ } } x' st') :
    st'.sock.trace = [.readMessage 7 1 [0x48], .readMessage 7 1 [0x65], .readMessage 7 1 [0x6c], .onPing 7 [0x21],
      .readMessage 7 0 [0x6c], .readMessage 7 0 [0x6f], .readMessage 7 0 []] ∧
    st'.sock.out.written = (List.replicate 7 [0x89, 1, 0x70]).flatten := by
  obtain ⟨evs, x, st0, e, ht, hw⟩ := C54_with_sends exStopAndPing (fun tr op ho => by
      rcases List.mem_cons.mp ho with rfl | ho
      · trivial
      · rw [List.mem_singleton.mp ho]; trivial) (fun tr c b ho => by
      rcases List.mem_cons.mp ho with e | ho
      · injection e with e1 _; rw [e1]; decide
      · exact nomatch List.mem_singleton.mp ho) default
    { Fixture.receiving (wireOf [Fixture.hel, Fixture.ping, Fixture.lo]) with
      sock := { (Fixture.receiving []).sock with out := ⟨[], List.replicate 100 (.upTo 9)⟩ } }
  have he : evs = [.readMessage 7 1 [0x48], .readMessage 7 1 [0x65], .readMessage 7 1 [0x6c], .onPing 7 [0x21],
      .readMessage 7 0 [0x6c], .readMessage 7 0 [0x6f], .readMessage 7 0 []] := by
    have := congrArg (fun r => r.2.sock.trace) e
    have ht : st0.sock.trace = [] ++ evs := ht
    rw [show evs = st0.sock.trace by rw [ht]; rfl, ← this]
    decide +kernel
  subst he
  obtain ⟨_, _, h1, _, h2⟩ := hw (by decide +kernel) x' st' hS
  exact ⟨h1.trans ht, h2.trans (by decide +kernel)⟩

end OatWS
