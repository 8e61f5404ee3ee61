import Verif.Spec.Threads
import Verif.Proofs.HandleFrame
/-! A logic for one thread that listens while other threads do things in between. -/

namespace OatWS.Threads
open RFC6455 Async Prog

variable {α β : Type}

/-! ## What the listening thread sees of the shared data -/

/-- Bytes still to be read, callbacks made, `m_lastOpcode`; `off`: the number of bytes that were still to be read when listening was
switched off, if it is off. -/
structure View where
  bytes : List UInt8
  trace : List Event
  last : Int
  off : Option Nat

/-- Somebody switches listening off. -/
def View.lower (v : View) : View := { v with off := v.off.or (some v.bytes.length) }

theorem View.lower_lower (v : View) : v.lower.lower = v.lower := by
  unfold View.lower
  cases v.off <;> rfl

/-- The effect of a step of the thread, when nobody else does anything. -/
def Makes (C : Rules) : (a : Act) → View → a.Res → View → Prop
  | .read n, v, r, v' => ∃ o, C.outcome o ∧ lowRead o v.bytes n = (r, v'.bytes) ∧ v' = { v with bytes := v'.bytes }
  | .getConfig, v, c, v' => c.readBufferSize = C.size ∧ v' = v
  | .getListener, v, l, v' => (∃ i, l = some i ∧ C.listener i) ∧ v' = v
  | .getLastOpcode, v, x, v' => x = v.last ∧ v' = v
  | .setLastOpcode x, v, _, v' => v' = { v with last := x }
  | .getListening, v, b, v' => b = v.off.isNone ∧ v' = v
  | .setListening _, v, _, v' => v' = v.lower
  | .callback e, v, tr, v' => tr = v.trace ++ [e] ∧ v' = { v with trace := v.trace ++ [e] }
  | _, v, _, v' => v' = v

/-- A step that is allowed once `listen` has been called. -/
def Legal (C : Rules) : Act → Prop
  | .setListening b => b = false
  | .setConfig c => c.readBufferSize = C.size
  | .setListener l => ∃ i, l = some i ∧ C.listener i
  | _ => True

/-- `Q` holds wherever the thread ends or may wait. -/
def Wp (C : Rules) : Prog α → View → (Out α → View → Prop) → Prop
  | .ret a, v, Q => Q (.ret a) v
  | .throw e, v, Q => Q (.throw e) v
  | .ub u, v, Q => Q (.ub u) v
  | .stuck, _, _ => True
  | .act a k, v, Q => Legal C a ∧ ((∃ n, a = .read n) → Q .reading v) ∧ ((∃ d, a = .write d) → Q .writing v) ∧
      ∀ u, u = v ∨ u = v.lower → ∀ r v', Makes C a u r v' → Wp C (k r) v' Q

theorem Wp.mono {C : Rules} {p : Prog α} {v Q Q'} (h : Wp C p v Q) (hq : ∀ x w, Q x w → Q' x w) : Wp C p v Q' := by
  induction p generalizing v with
  | ret a => exact hq _ _ h
  | throw e => exact hq _ _ h
  | ub u => exact hq _ _ h
  | stuck => trivial
  | act a k ih =>
    obtain ⟨h1, h2, h3, h4⟩ := h
    exact ⟨h1, fun e => hq _ _ (h2 e), fun e => hq _ _ (h3 e), fun u hu r v' hd => ih r (h4 u hu r v' hd)⟩

/-- `Q` for `p; f` in terms of `p`. -/
def Out.seq {α β : Type} (Q : Out β → View → Prop) (f : α → View → Prop) : Out α → View → Prop
  | .ret a, v => f a v
  | .throw e, v => Q (.throw e) v
  | .ub u, v => Q (.ub u) v
  | .reading, v => Q .reading v
  | .writing, v => Q .writing v

theorem Wp.andThen {C : Rules} {p : Prog α} {f : α → Prog β} {v} {Q : Out β → View → Prop}
    (h : Wp C p v (Out.seq Q fun a w => Wp C (f a) w Q)) : Wp C (Prog.andThen p f) v Q := by
  induction p generalizing v with
  | ret a => exact h
  | throw e => exact h
  | ub u => exact h
  | stuck => trivial
  | act a k ih =>
    obtain ⟨h1, h2, h3, h4⟩ := h
    exact ⟨h1, h2, h3, fun u hu r v' hd => ih r (h4 u hu r v' hd)⟩

theorem Wp.catching {C : Rules} {p : Prog α} {f : Err → Prog α} {v} {Q : Out α → View → Prop}
    (h : Wp C p v fun x w => match x with | .throw e => Wp C (f e) w Q | x => Q x w) : Wp C (Prog.catching p f) v Q := by
  induction p generalizing v with
  | ret a => exact h
  | throw e => exact h
  | ub u => exact h
  | stuck => trivial
  | act a k ih =>
    obtain ⟨h1, h2, h3, h4⟩ := h
    exact ⟨h1, h2, h3, fun u hu r v' hd => ih r (h4 u hu r v' hd)⟩

/-- Somebody else switches listening off. -/
theorem Wp.lower {C : Rules} {p : Prog α} {v Q} (h : Wp C p v Q) (hq : ∀ x w, Q x w → Q x w.lower) : Wp C p v.lower Q := by
  cases p with
  | ret a => exact hq _ _ h
  | throw e => exact hq _ _ h
  | ub u => exact hq _ _ h
  | stuck => trivial
  | act a k =>
    obtain ⟨h1, h2, h3, h4⟩ := h
    refine ⟨h1, fun e => hq _ _ (h2 e), fun e => hq _ _ (h3 e), fun u hu r v' hd => h4 u ?_ r v' hd⟩
    rcases hu with rfl | rfl
    · exact .inr rfl
    · exact .inr (View.lower_lower v)

/-! ## Where the view is after some steps -/

/-- `k` bytes have been read and callbacks `evs` made; listening may have been switched off. -/
structure After (v : View) (k : Nat) (evs : List Event) (w : View) : Prop where
  le : k ≤ v.bytes.length
  bytes : w.bytes = v.bytes.drop k
  trace : w.trace = v.trace ++ evs
  off : w.off = v.off ∨ v.off = none ∧ ∃ n, w.off = some n ∧ n ≤ v.bytes.length

theorem After.refl (v : View) : After v 0 [] v := ⟨by omega, by simp, by simp, .inl rfl⟩

theorem After.lower (v : View) : After v 0 [] v.lower := by
  refine ⟨by omega, by simp [View.lower], by simp [View.lower], ?_⟩
  unfold View.lower
  cases h : v.off with
  | none => exact .inr ⟨rfl, _, rfl, Nat.le_refl _⟩
  | some n => exact .inl rfl

theorem After.or {v u : View} (h : u = v ∨ u = v.lower) : After v 0 [] u ∧ u.last = v.last := by
  rcases h with rfl | rfl
  · exact ⟨.refl _, rfl⟩
  · exact ⟨.lower _, rfl⟩

theorem After.length {v k evs w} (h : After v k evs w) : w.bytes.length = v.bytes.length - k := by rw [h.bytes, List.length_drop]

theorem After.trans {v k e w k' e' u} (h : After v k e w) (h' : After w k' e' u) : After v (k + k') (e ++ e') u := by
  have hl := h.length
  have h1 := h.le
  have h2 := h'.le
  refine ⟨by omega, by rw [h'.bytes, h.bytes, List.drop_drop], by rw [h'.trace, h.trace, List.append_assoc], ?_⟩
  rcases h.off with h3 | ⟨h3, n, h4, h5⟩
  · rcases h'.off with h6 | ⟨h6, m, h7, h8⟩
    · exact .inl (h6.trans h3)
    · exact .inr ⟨by rw [← h3]; exact h6, m, h7, by omega⟩
  · rcases h'.off with h6 | ⟨h6, m, h7, h8⟩
    · exact .inr ⟨h3, n, by rw [h6]; exact h4, h5⟩
    · rw [h4] at h6; cases h6

theorem After.zero {v k e w u} (h : After v 0 [] w) (h' : After w k e u) : After v k e u := by
  have := h.trans h'
  rwa [Nat.zero_add, List.nil_append] at this

theorem After.to {v k e w u} (h : After v k e w) (h' : After w 0 [] u) : After v k e u := by
  have := h.trans h'
  rwa [Nat.add_zero, List.append_nil] at this

theorem After.last_eq {v k e w} (x : Int) (h : After v k e w) : After v k e { w with last := x } := ⟨h.le, h.bytes, h.trace, h.off⟩

/-! ## Code that does not listen -/

/-- A step of code that does not listen. -/
def Side (C : Rules) : Act → Prop
  | .read _ => False
  | .callback _ => False
  | .setLastOpcode _ => False
  | .getListening => False
  | .setListening b => b = false
  | .setConfig c => c.readBufferSize = C.size
  | .setListener l => ∃ i, l = some i ∧ C.listener i
  | _ => True

/-- A program that does not listen; `E`: how it may end. -/
def By (C : Rules) : Prog α → (Out α → Prop) → Prop
  | .ret a, E => E (.ret a)
  | .throw e, E => E (.throw e)
  | .ub u, E => E (.ub u)
  | .stuck, _ => True
  | .act a k, E => Side C a ∧ ∀ r, By C (k r) E

theorem By.mono {C : Rules} {p : Prog α} {E E'} (h : By C p E) (he : ∀ x, E x → E' x) : By C p E' := by
  induction p with
  | ret a => exact he _ h
  | throw e => exact he _ h
  | ub u => exact he _ h
  | stuck => trivial
  | act a k ih => exact ⟨h.1, fun r => ih r (h.2 r)⟩

/-- `E` for `p; f`. -/
def Out.then {α β : Type} (E : Out β → Prop) (f : α → Prop) : Out α → Prop
  | .ret a => f a
  | .throw e => E (.throw e)
  | .ub u => E (.ub u)
  | .reading => True
  | .writing => True

theorem By.andThen {C : Rules} {p : Prog α} {f : α → Prog β} {E} (h : By C p (Out.then E fun a => By C (f a) E)) :
    By C (Prog.andThen p f) E := by
  induction p with
  | ret a => exact h
  | throw e => exact h
  | ub u => exact h
  | stuck => trivial
  | act a k ih => exact ⟨h.1, fun r => ih r (h.2 r)⟩

theorem By.catching {C : Rules} {p : Prog α} {f : Err → Prog α} {E} (h : By C p fun x => match x with | .throw e => By C (f e) E | x => E x) :
    By C (Prog.catching p f) E := by
  induction p with
  | ret a => exact h
  | throw e => exact h
  | ub u => exact h
  | stuck => trivial
  | act a k ih => exact ⟨h.1, fun r => ih r (h.2 r)⟩

theorem Side.legal {C : Rules} {a} (h : Side C a) : Legal C a := by
  cases a <;> first | trivial | exact h

theorem Side.does {C : Rules} {a u r v'} (h : Side C a) (hd : Makes C a u r v') : v' = u ∨ v' = u.lower := by
  cases a with
  | read n => cases h
  | callback e => cases h
  | setLastOpcode x => cases h
  | getListening => cases h
  | setListening b => exact .inr hd
  | getConfig => exact .inl hd.2
  | getListener => exact .inl hd.2
  | getLastOpcode => exact .inl hd.2
  | _ => exact .inl hd

theorem Side.notRead {C : Rules} {a} (h : Side C a) : ¬ ∃ n, a = .read n := by
  rintro ⟨n, rfl⟩; exact h

/-- Code that does not listen, run by the listening thread (in a callback). -/
theorem By.wp {C : Rules} {p : Prog α} {E} (h : By C p E) (v0 v : View) (hv : v = v0 ∨ v = v0.lower) {Q : Out α → View → Prop}
    (hq : ∀ x w, w = v0 ∨ w = v0.lower → E x ∨ x = .writing → Q x w) : Wp C p v Q := by
  induction p generalizing v with
  | ret a => exact hq _ _ hv (.inl h)
  | throw e => exact hq _ _ hv (.inl h)
  | ub u => exact hq _ _ hv (.inl h)
  | stuck => trivial
  | act a k ih =>
    refine ⟨h.1.legal, fun e => absurd e h.1.notRead, fun _ => hq _ _ hv (.inr rfl), fun u hu r v' hd => ih r (h.2 r) v' ?_⟩
    have hu' : u = v0 ∨ u = v0.lower := by
      rcases hu with rfl | rfl
      · exact hv
      · rcases hv with rfl | rfl
        · exact .inr rfl
        · exact .inr (View.lower_lower _)
    rcases h.1.does hd with rfl | rfl
    · exact hu'
    · rcases hu' with rfl | rfl
      · exact .inr rfl
      · exact .inr (View.lower_lower _)

end OatWS.Threads
