import Verif.Proofs.FrameStream
import Verif.Proofs.Follow
/-! Listening with listeners that do not interfere. -/

namespace OatWS
open RFC6455

/-- `listen` is its body with exceptions swallowed. -/
theorem listen_eq (env : Env) (h : Header) (st : St) : listen env h st =
    match listenBody env h st with
    | (.throw _, st') => (.ret (), st')
    | r => r := rfl

theorem listen_of_body {env h st x st'} (hb : listenBody env h st = (x, st')) (hx : ∀ u, x ≠ .ub u) (hbl : x ≠ .block) :
    listen env h st = (.ret (), st') := by
  rw [listen_eq, hb]
  cases x with
  | ret a => rfl
  | throw e => rfl
  | block => exact absurd rfl hbl
  | ub u => exact absurd rfl (hx u)

theorem Reason.ofBytes_cases {r : Reason} (h : r ≠ .stopped) (h' : r ≠ .interrupted) : r.ofBytes := by
  cases r <;> simp_all [Reason.ofBytes]

theorem EndsLike.notUb {r x} (h : EndsLike r x) (hr : r ≠ .interrupted) : ∀ u, x ≠ .ub u := by
  intro u e; subst e
  cases r <;> simp_all [EndsLike]

theorem EndsLike.block {r x} (h : EndsLike r x) (hr : r ≠ .interrupted) (hx : x = .block) : r = .incomplete := by
  subst hx
  cases r <;> simp_all [EndsLike]

/-- A passive listener is never the reason why listening ends. -/
theorem listenBody_passive (env : Env) (ht : env.Tame) (hp : env.Passive) (B : Nat) (hB : 0 < B) (h : Header) (st : St)
    (hs : st.sock.config.readBufferSize = B) (o : Bool) (ho : OpenIs o st.sock.lastOpcode) :
    ∃ k ds r evs x st', listenBody env h st = (x, st') ∧ r.ofBytes ∧ k ≤ st.inp.bytes.length ∧
      st'.inp.bytes = st.inp.bytes.drop k ∧ Receives o (st.inp.bytes.take k) ds r ∧
      RendersFor st.sock.listener B evs ds ∧ st'.sock.trace = st.sock.trace ++ evs ∧ EndsLike r x ∧
      (r = .incomplete → Healthy st.inp.bytes.length st.inp.sched → k = st.inp.bytes.length) ∧
      (Healthy (st.inp.bytes.length + 1) st.inp.sched → x ≠ .block) := by
  obtain ⟨k, ds, r, evs, x, st', e, hL⟩ := listenBody_receives env ht B hB h st hs o ho
  have hl : st'.sock.listening = true := by
    have := (passiveRel hp).listenLoop (st.inp.sched.length + 1) h { st with sock := { st.sock with listening := true } }
    have e' : OatWS.listenLoop env (st.inp.sched.length + 1) h { st with sock := { st.sock with listening := true } } = (x, st') := e
    rw [e'] at this
    exact this
  have hr : r ≠ .interrupted := fun e => (hL.user e).2 hp.returns
  have hr' : r.ofBytes := Reason.ofBytes_cases (fun e => by
    have := hL.stopped e; rw [hl] at this; cases this) hr
  exact ⟨k, ds, r, evs, x, st', e, hr', hL.le, hL.bytes, hL.receives, hL.renders, hL.sock.trace, hL.ends, hL.all,
    fun hh hx => hL.noBlock (hL.ends.block hr hx) hh hx⟩

/-- On a healthy connection, a passive listener hears the accepted frames at the front of the stream, and then whatever
follows from the rest. -/
theorem listenBody_frames (env : Env) (ht : env.Tame) (hp : env.Passive) (B : Nat) (hB : 0 < B) (h : Header) (st : St)
    (hs : st.sock.config.readBufferSize = B) (o o' : Bool) (ho : OpenIs o st.sock.lastOpcode)
    (hh : Healthy (st.inp.bytes.length + 1) st.inp.sched) (fs : List Frame) (tail : List UInt8)
    (hb : st.inp.bytes = wireOf fs ++ tail) (ha : AcceptedAll o fs o') :
    ∃ k ds r evs x st', listenBody env h st = (x, st') ∧ listen env h st = (.ret (), st') ∧ r.ofBytes ∧
      k ≤ tail.length ∧ st'.inp.bytes = tail.drop k ∧ Receives o' (tail.take k) ds r ∧
      RendersFor st.sock.listener B evs (deliveriesOf fs ++ ds) ∧ st'.sock.trace = st.sock.trace ++ evs ∧
      EndsLike r x ∧ x ≠ .block ∧ (r = .incomplete → k = tail.length) := by
  obtain ⟨k, ds, r, evs, x, st', e, hr, hk, hbytes, hrec, hren, htr, hends, hinc, hnb⟩ :=
    listenBody_passive env ht hp B hB h st hs o ho
  have hri : r ≠ .interrupted := fun e => by rw [e] at hr; exact hr
  have hnb' := hnb hh
  have hinc' : r = .incomplete → k = st.inp.bytes.length := fun e => hinc e (hh.mono (by omega))
  obtain ⟨bs', ds', e1, e2, h1, h2, h3⟩ := hrec.frames (tail := tail) ha (by rw [← hb]; exact List.take_prefix _ _) hr
    (fun e => by rw [← hb, hinc' e, List.take_length])
  have hkl : k = (wireOf fs).length + bs'.length := by
    have := congrArg List.length e1
    rw [List.length_take, List.length_append, Nat.min_eq_left hk] at this
    exact this
  have htake : tail.take bs'.length = bs' := by rw [← List.prefix_iff_eq_take.mp h2]
  refine ⟨bs'.length, ds', r, evs, x, st', e, listen_of_body e (hends.notUb hri) hnb', hr, h2.length_le, ?_, ?_, ?_, htr,
    hends, hnb', fun e => by rw [h3 e]⟩
  · rw [hbytes, hb, hkl, List.drop_append, List.drop_of_length_le (by omega), List.nil_append]
    congr 1; omega
  · rw [htake]; exact h1
  · rw [← e2]; exact hren

end OatWS
