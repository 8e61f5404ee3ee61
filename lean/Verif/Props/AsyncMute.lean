import Verif.Props.AsyncEquiv
import Verif.Props.Flow
/-! # C45 for `listenAsync` -/

namespace OatWS.Async
open RFC6455

/-- The connection failed or ended. -/
def Outcome.lost : Outcome → Prop
  | .failed .io => True
  | .failed (.thrown .connectionState) => True
  | _ => False

theorem endMatch_same {x : Exit Unit} {o o' : Outcome} (h : EndMatch x o) (h' : EndMatch x o') : o = o' ∨ (o.lost ∧ o'.lost) := by
  cases x with
  | ret _ => cases o <;> cases o' <;> first | exact .inl rfl | exact h.elim | exact h'.elim
  | block => cases o <;> cases o' <;> first | exact .inl rfl | exact h.elim | exact h'.elim
  | ub u =>
    cases o <;> cases o' <;> first | exact h.elim | exact h'.elim | skip
    rw [← show u = _ from h, ← show u = _ from h']; exact .inl rfl
  | throw e =>
    cases o <;> cases o' <;> first | exact h.elim | exact h'.elim | skip
    cases (show ErrMatch _ _ from h) with
    | io g =>
      cases (show ErrMatch _ _ from h') with
      | io _ => exact .inl rfl
      | same g' =>
        rcases g' with g' | rfl
        · rw [g] at g'; cases g'
        · exact .inr ⟨trivial, trivial⟩
    | same g =>
      cases (show ErrMatch _ _ from h') with
      | io g' =>
        rcases g with g | rfl
        · rw [g'] at g; cases g
        · exact .inr ⟨trivial, trivial⟩
      | same _ => exact .inl rfl

/-- **C45** (`listenAsync`). Take any state and a listener that only looks. The same run of `listenAsync` without a listener exists, and ends in the same way (if the connection is lost: both report it), with the same bytes consumed and
written and the same socket state; only the callbacks (and the listener) differ. -/
theorem C45_async (env : Env) (hq : env.Quiet) (h h' : Header) (w w0 : World) (hw0 : w0.st = { w.st with sock := { w.st.sock with listener := none, trace := [] } })
    (hB : 0 < w.st.sock.config.readBufferSize) (o : Outcome) (w' : World) (hr : Runs env (listenTask h) w o w') :
    (∃ o0 w0', Runs env (listenTask h') w0 o0 w0') ∧
    ∀ o0 w0', Runs env (listenTask h') w0 o0 w0' → (o0 = o ∨ (o.lost ∧ o0.lost)) ∧
      w0'.st.inp = w'.st.inp ∧ w0'.st.sock.out = w'.st.sock.out ∧ w0'.st.sock.lastOpcode = w'.st.sock.lastOpcode ∧ w0'.st.sock.rngPos = w'.st.sock.rngPos ∧
      w0'.st.sock.config = w'.st.sock.config ∧ w0'.st.sock.listener = none ∧ w0'.st.sock.trace = [] := by
  have hp : PlainListener env := fun tr op hop => by rw [hq tr] at hop; cases hop
  obtain ⟨_, g2⟩ := C28_async_listen env hp default h w.st w rfl hB
  obtain ⟨e1, e2⟩ := g2 o w' hr
  obtain ⟨g3, g4⟩ := C28_async_listen env hp default h' { w.st with sock := { w.st.sock with listener := none, trace := [] } } w0
    (by rw [hw0]; rfl) hB
  refine ⟨g3, fun o0 w0' hr0 => ?_⟩
  obtain ⟨e3, e4⟩ := g4 o0 w0' hr0
  have hm := listenLoop_mutes hq (w.st.inp.sched.length + 1) default { w.st with sock := { w.st.sock with listening := true } }
  have e : listenBody env default { w.st with sock := { w.st.sock with listener := none, trace := [] } } =
      ((listenBody env default w.st).1, (listenBody env default w.st).2.mute) := Prod.ext hm.1 hm.2
  rw [e] at e3 e4
  refine ⟨?_, ?_⟩
  · rcases endMatch_same e1 e3 with h | ⟨h1, h2⟩
    · exact .inl h.symm
    · exact .inr ⟨h1, h2⟩
  · generalize listenBody env default w.st = X at e2 e4
    rcases X with ⟨x, sx⟩
    dsimp only at e2 e4
    have a1 := congrArg (fun s : St => (s.inp, s.sock.out)) e2
    have a2 := congrArg (fun s : St => (s.inp, s.sock.out)) e4
    have b1 := congrArg (fun s : St => (s.sock.lastOpcode, s.sock.rngPos)) e2
    have b2 := congrArg (fun s : St => (s.sock.lastOpcode, s.sock.rngPos)) e4
    have c1 := congrArg (fun s : St => s.sock.config) e2
    have c2 := congrArg (fun s : St => (s.sock.config, s.sock.listener, s.sock.trace)) e4
    dsimp only [St.mute, Sock.mute] at a1 a2 b1 b2 c1 c2
    simp only [Prod.mk.injEq] at a1 a2 b1 b2 c2
    exact ⟨a2.1.trans a1.1.symm, a2.2.trans a1.2.symm, b2.1.trans b1.1.symm, b2.2.trans b1.2.symm, c2.1.trans c1.symm, c2.2.1, c2.2.2⟩

/-- A message in two fragments around a ping, then a close frame: with a listener and without. -/
example : ∃ o w', Runs Fixture.env (listenTask default) { st := Fixture.receiving (wireOf [Fixture.hel, Fixture.ping, Fixture.lo, Fixture.closing]) } o w' ∧
    w'.st.sock.trace.length = 8 ∧
    ∃ o0 w0', Runs Fixture.env (listenTask default) { st := { Fixture.receiving (wireOf [Fixture.hel, Fixture.ping, Fixture.lo, Fixture.closing]) with sock := { (Fixture.receiving []).sock with listener := none } } } o0 w0' ∧
      w0'.st.inp = w'.st.inp ∧ w0'.st.sock.trace = [] := by
  have hp : PlainListener Fixture.env := fun tr op hop => by rw [Fixture.env_quiet tr] at hop; cases hop
  obtain ⟨⟨o, w', hr⟩, _⟩ := C28_async_listen Fixture.env hp default default
    (Fixture.receiving (wireOf [Fixture.hel, Fixture.ping, Fixture.lo, Fixture.closing]))
    { st := Fixture.receiving (wireOf [Fixture.hel, Fixture.ping, Fixture.lo, Fixture.closing]) } rfl (by decide)
  obtain ⟨⟨o0, w0', hr0⟩, hall⟩ := C45_async Fixture.env Fixture.env_quiet default default
    { st := Fixture.receiving (wireOf [Fixture.hel, Fixture.ping, Fixture.lo, Fixture.closing]) }
    { st := { Fixture.receiving (wireOf [Fixture.hel, Fixture.ping, Fixture.lo, Fixture.closing]) with sock := { (Fixture.receiving []).sock with listener := none } } }
    rfl (by decide) o w' hr
  obtain ⟨_, h1, _, _, _, _, _, h2⟩ := hall o0 w0' hr0
  refine ⟨o, w', hr, ?_, o0, w0', hr0, h1, h2⟩
  rw [(C28_same_callbacks Fixture.env hp default default
    (Fixture.receiving (wireOf [Fixture.hel, Fixture.ping, Fixture.lo, Fixture.closing])) _ (by rfl) (by decide) o w' hr).1]
  decide +kernel

end OatWS.Async
