import Verif.Spec.Replace
import Verif.Props.Resume
/-! # C55: replacing the listener -/

namespace OatWS
open RFC6455

theorem currentListener_append (env : Env) (l : Option Nat) (tr a b : List Event) :
    currentListener env l tr (a ++ b) = currentListener env (currentListener env l tr a) (tr ++ a) b := by
  induction a generalizing l tr with
  | nil => simp [currentListener]
  | cons e a ih => simp [currentListener, ih, List.append_assoc]

/-- Each callback goes to the listener current at that time. -/
def Directed (env : Env) (l : Option Nat) (tr evs : List Event) : Prop :=
  ∀ a e b, evs = a ++ e :: b → currentListener env l tr a = some e.to

theorem Directed.append {env l tr a b} (h : Directed env l tr a) (h' : Directed env (currentListener env l tr a) (tr ++ a) b) :
    Directed env l tr (a ++ b) := by
  intro x e y he
  rcases List.append_eq_append_iff.mp he with ⟨c, h1, h2⟩ | ⟨c, h1, h2⟩
  · rw [h1, currentListener_append]
    exact h' c e y h2
  · cases c with
    | nil =>
      rw [List.append_nil] at h1
      rw [← h1]
      exact (h' [] e y h2.symm)
    | cons g c =>
      injection h2 with h2 h3
      subst h2
      exact h x e c h1

theorem send_listener (env : Env) (c : SendCall) (s : Sock) : (send env c s).2.listener = s.listener :=
  (send_keeps env c s).listener

theorem runUserOps_listener (env : Env) (ops : List UserOp) (s : Sock) (h : (runUserOps env ops s).1.isRet = true) :
    (runUserOps env ops s).2.listener = lastSet s.listener ops := by
  induction ops generalizing s with
  | nil => rfl
  | cons op ops ih =>
    change (P.bind (runUserOp env op) (fun _ => runUserOps env ops) s).1.isRet = true at h
    change (P.bind (runUserOp env op) (fun _ => runUserOps env ops) s).2.listener = _
    rw [P.bind_apply] at h ⊢
    cases op with
    | stopListening => exact ih _ h
    | setListener l => exact ih _ h
    | setConfig c => exact ih _ h
    | throw => cases h
    | send c b =>
      have hl := send_listener env c s
      revert h
      simp only [runUserOp, lastSet]
      rcases hs : send env c s with ⟨(a | e | _ | u), s'⟩ <;> rw [hs] at hl <;> simp only [] at hl ⊢
      · intro h; rw [← hl]; exact ih _ h
      · cases b
        · intro h; cases h
        · intro h; rw [← hl]; exact ih _ h
      · intro h; cases h
      · intro h; cases h

/-- What a program that makes callbacks does with the listener. -/
def DirectedRel (env : Env) (x : Bool) (s s' : Sock) : Prop :=
  ∃ evs, s'.trace = s.trace ++ evs ∧ Directed env s.listener s.trace evs ∧
    (x = true → s'.listener = currentListener env s.listener s.trace evs)

theorem directedRel (env : Env) : SockRel env (DirectedRel env) where
  refl s := ⟨[], by simp, (by intro a e b h; cases a <;> cases h), fun _ => rfl⟩
  weaken := fun ⟨evs, h1, h2, _⟩ => ⟨evs, h1, h2, nofun⟩
  trans := by
    rintro a b c x ⟨evs, h1, h2, h3⟩ ⟨evs', h1', h2', h3'⟩
    have h3 := h3 rfl
    refine ⟨evs ++ evs', by rw [h1', h1, List.append_assoc], h2.append ?_, fun hx => ?_⟩
    · rw [← h3, ← h1]; exact h2'
    · rw [currentListener_append, ← h3, ← h1]; exact h3' hx
  call := by
    intro mk hmk s
    cases hl : s.listener with
    | none =>
      rw [callListener_none hl]
      exact ⟨[], by simp, (by intro a e b h; cases a <;> cases h), fun _ => rfl⟩
    | some l =>
      rw [callListener_some hl]
      refine ⟨[mk l], runUserOps_trace _ _, ?_, fun h => ?_⟩
      · intro a e b h
        cases a with
        | nil => injection h with h _; rw [← h, hmk l]; exact hl
        | cons _ a => injection h with _ h; cases a <;> cases h
      · rw [runUserOps_listener env _ _ h, hl]; simp only [hl, currentListener]
  last s v := ⟨[], by simp, (by intro a e b h; cases a <;> cases h), fun _ => rfl⟩

/-- **C55.** For every listener, stream and schedule, and whatever is done in callbacks: each callback made while a frame is read goes to the
listener that is set at that time (the one set last in an earlier callback, or else the one set before the call); no callback is
made while it is null. When the frame is done that listener is the one set. -/
theorem C55_frame (env : Env) (h : Header) (st : St) : ∃ evs, (iterateFrame env h st).2.sock.trace = st.sock.trace ++ evs ∧
    (∀ a e b, evs = a ++ e :: b → currentListener env st.sock.listener st.sock.trace a = some e.to) ∧
    ∀ h', (iterateFrame env h st).1 = .ret h' →
      (iterateFrame env h st).2.sock.listener = currentListener env st.sock.listener st.sock.trace evs := by
  obtain ⟨evs, h1, h2, h3⟩ := (directedRel env).iterateFrame h st
  exact ⟨evs, h1, h2, fun h' e => h3 (by rw [e]; rfl)⟩

/-- The same over a whole call of `listen`. -/
theorem C55_listen (env : Env) (h : Header) (st : St) : ∃ evs, (listen env h st).2.sock.trace = st.sock.trace ++ evs ∧
    (∀ a e b, evs = a ++ e :: b → currentListener env st.sock.listener st.sock.trace a = some e.to) ∧
    ((listenBody env h st).1 = .ret () →
      (listen env h st).2.sock.listener = currentListener env st.sock.listener st.sock.trace evs) := by
  obtain ⟨evs, h1, h2, h3⟩ := (directedRel env).listenLoop (st.inp.sched.length + 1) h st.on
  have e : (listen env h st).2 = (listenBody env h st).2 := by
    rw [listen_eq]
    rcases listenBody env h st with ⟨(_ | _ | _ | _), _⟩ <;> rfl
  refine ⟨evs, by rw [e]; exact h1, h2, fun e' => ?_⟩
  rw [e]
  exact h3 (by
    have : listenLoop env (st.inp.sched.length + 1) h st.on = listenBody env h st := rfl
    rw [this, e']; rfl)

/-- A listener (7) that hands over to another one (8) at its second callback; 8 removes itself at the end of its message. -/
def Fixture.handover : Env := { Fixture.env with
  react := fun tr => if tr.length = 2 then [.setListener (some 8)] else if tr.length = 4 then [.setListener none] else [] }

/-- The change takes effect at the next callback, within the frame; what comes after 8 has gone is dropped. -/
example : (listen Fixture.handover default (Fixture.receiving (wireOf [Fixture.hel, Fixture.lo, Fixture.ping]))).2.sock.trace =
    [.readMessage 7 1 [0x48], .readMessage 7 1 [0x65], .readMessage 8 1 [0x6c], .readMessage 8 0 [0x6c]] := by decide +kernel

example : (listen Fixture.handover default (Fixture.receiving (wireOf [Fixture.hel, Fixture.lo, Fixture.ping]))).2.sock.listener = none := by
  decide +kernel

end OatWS
