import Verif.Props.Send
/-! A connection that does not fail: sends do not fail. -/

namespace OatWS
open RFC6455

/-- Over a connection whose writes do not fail, `m` does not throw, and what it returns is `ok`. -/
def Flows {α : Type} (ok : α → Prop) (m : P Sock α) : Prop :=
  ∀ s, (∀ o ∈ s.out.sched, o.fine = true) → (∀ e, (m s).1 ≠ .throw e) ∧ (∀ a, (m s).1 = .ret a → ok a) ∧ ∀ o ∈ (m s).2.out.sched, o.fine = true

theorem Flows.pure {α : Type} {ok : α → Prop} {a : α} (h : ok a) : Flows ok (Pure.pure a : P Sock α) := fun _ hf => ⟨nofun, fun _ e => (Exit.ret.inj e) ▸ h, hf⟩

theorem Flows.undef {α : Type} {ok : α → Prop} (u : UB) : Flows ok (P.undef u : P Sock α) := fun _ hf => ⟨nofun, nofun, hf⟩

theorem Flows.bind {α β : Type} {ok : α → Prop} {ok' : β → Prop} {m : P Sock α} {f : α → P Sock β} (h : Flows ok m) (h' : ∀ a, ok a → Flows ok' (f a)) : Flows ok' (m >>= f) := by
  intro s hf
  obtain ⟨h1, h2, h3⟩ := h s hf
  rw [P.bind_def, P.bind]
  rcases hm : m s with ⟨r, s'⟩
  rw [hm] at h1 h2 h3
  cases r with
  | ret a => exact h' a (h2 a rfl) s' h3
  | throw e => exact absurd rfl (h1 e)
  | block => exact ⟨nofun, nofun, h3⟩
  | ub u => exact ⟨nofun, nofun, h3⟩

theorem Flows.ite {α : Type} {ok : α → Prop} {c : Prop} [Decidable c] {a b : P Sock α} (ha : c → Flows ok a) (hb : ¬ c → Flows ok b) : Flows ok (if c then a else b) := by
  split
  · exact ha ‹_›
  · exact hb ‹_›

theorem writeExact_flows (sched : List IoOutcome) (written data : List UInt8) (n : Nat) (hf : ∀ o ∈ sched, o.fine = true) :
    (∀ m, (writeExact sched written data n).1 = .wrote m → m = n + data.length) ∧ ∀ o ∈ (writeExact sched written data n).2.sched, o.fine = true := by
  induction sched generalizing written data n with
  | nil =>
    cases data with
    | nil => exact ⟨fun m h => by injection h with h; rw [← h]; rfl, hf⟩
    | cons b bs => exact ⟨nofun, hf⟩
  | cons o sched ih =>
    cases data with
    | nil => exact ⟨fun m h => by injection h with h; rw [← h]; rfl, hf⟩
    | cons b bs =>
      have hs : ∀ x ∈ sched, x.fine = true := fun x hx => hf x (List.mem_cons_of_mem _ hx)
      have ho := hf o List.mem_cons_self
      cases o with
      | upTo m =>
        simp only [writeExact]
        have hk : min (m + 1) (b :: bs).length ≤ (b :: bs).length := Nat.min_le_right ..
        generalize min (m + 1) (b :: bs).length = k at hk ⊢
        obtain ⟨h1, h2⟩ := ih (written ++ (b :: bs).take k) ((b :: bs).drop k) (n + k) hs
        refine ⟨fun x hx => ?_, h2⟩
        have := h1 x hx
        rw [List.length_drop] at this
        omega
      | retry => exact ih written (b :: bs) n hs
      | zero => cases ho
      | broken => cases ho

theorem connWriteExact_flows (data : List UInt8) : Flows (fun n => n = data.length) (connWriteExact data) := by
  intro s hf
  obtain ⟨h1, h2⟩ := writeExact_flows s.out.sched s.out.written data 0 hf
  rw [connWriteExact_eq]
  rcases hw : writeExact s.out.sched s.out.written data 0 with ⟨r, o⟩
  rw [hw] at h1 h2
  cases r with
  | wrote n => exact ⟨nofun, fun a e => by injection e with e; rw [← e, h1 n rfl, Nat.zero_add], h2⟩
  | blocked => exact ⟨nofun, nofun, h2⟩

theorem writeExpect_flows {data : List UInt8} {n : Nat} (h : data.length = n) (e : Err) : Flows (fun _ => True) (writeExpect data n e) :=
  (connWriteExact_flows data).bind fun _ ha => .ite (fun hne => absurd (ha.trans h) hne) fun _ => .pure trivial

theorem stored16 (e : Endian) (x : UInt16) : (store16 e x).length = 2 := by cases e <;> rfl
theorem stored32 (e : Endian) (x : UInt32) : (store32 e x).length = 4 := by cases e <;> rfl

theorem sendFrameHeader_flows (env : Env) (h : Header) (fin : Bool) (op : UInt8) (n : Int) : Flows (fun _ => True) (sendFrameHeader env h fin op n) := by
  unfold sendFrameHeader
  have hget : Flows (fun _ => True) (P.get : P Sock Sock) := fun _ hf => ⟨nofun, fun _ _ => trivial, hf⟩
  have hg : ∀ h : Header, Flows (fun _ => True) (generateMaskForFrame env h) := fun _ _ hf => ⟨nofun, fun _ _ => trivial, hf⟩
  have hw : ∀ h : Header, Flows (fun _ => True) (writeFrameHeader env h) := by
    intro h
    unfold writeFrameHeader writeLength writeMask
    refine (writeExpect_flows (stored16 ..) _).bind fun _ _ => Flows.bind (ok := fun _ => True) ?_ fun _ _ => ?_
    · exact .ite (fun _ => writeExpect_flows (stored16 ..) _) fun _ => .ite (fun _ => writeExpect_flows (by rw [List.length_append, stored32, stored32]) _) fun _ => .pure trivial
    · exact .ite (fun _ => writeExpect_flows rfl _) fun _ => .pure trivial
  have hj : ∀ h : Header, Flows (fun _ => True) (do writeFrameHeader env h; pure h) := fun h => (hw h).bind fun _ _ => .pure trivial
  exact hget.bind fun s _ => .ite (fun _ => (hg _).bind fun h _ => hj h) fun _ => Flows.bind (ok := fun _ => True) (.pure trivial) fun h _ => hj h

theorem sendOneFrame_flows (env : Env) (fin : Bool) (op : UInt8) (m : Option (List UInt8)) : Flows (fun b => b = true) (sendOneFrame env fin op m) := by
  have last : ∀ (n : Nat) data, data.length = n → Flows (fun b => b = true) (do let res ← connWriteExact data; pure (res = n) : P Sock Bool) := fun n data hd =>
    (connWriteExact_flows data).bind fun a ha => .pure (decide_eq_true (ha.trans hd))
  have hx : ∀ (k : Mask) (bs : List UInt8) o, (xorMask k o bs).length = bs.length := by
    intro k bs
    induction bs with
    | nil => intro _; rfl
    | cons b bs ih => intro o; show _ + 1 = _ + 1; rw [ih]
  match m with
  | none => exact (sendFrameHeader_flows env default fin op 0).bind fun _ _ => .pure rfl
  | some [] => exact (sendFrameHeader_flows env default fin op 0).bind fun _ _ => .pure rfl
  | some (b :: bs) => exact (sendFrameHeader_flows env default fin op _).bind fun h _ => .ite (fun _ => .ite (fun _ => .undef _) fun _ => last _ _ (hx ..)) fun _ => last _ _ rfl

theorem sendOrStop_flows (env : Env) (op : UInt8) (m : Option (List UInt8)) : Flows (fun _ => True) (sendOrStop env op m) :=
  (sendOneFrame_flows env true op m).bind fun b hb => .ite (fun _ => .pure trivial) fun h => absurd hb h

/-- The exit without its value. -/
def Exit.forget : Exit Bool → Exit Unit
  | .ret _ => .ret ()
  | .throw e => .throw e
  | .block => .block
  | .ub u => .ub u

theorem send_oneFrame {env : Env} {fin : Bool} {op : UInt8} {m : Option (List UInt8)} {s s' : Sock} {x : Exit Bool} (h : sendOneFrame env fin op m s = (x, s')) : send env (.oneFrame fin op m) s = (x.forget, s') := by
  show P.bind (sendOneFrame env fin op m) (fun _ => pure ()) s = _
  rw [P.bind, h]
  cases x <;> rfl

/-- Over a connection whose writes do not fail, a send of a message that is not too long writes its frame, or waits for the connection when it has written a beginning of it. -/
theorem send_flows (env : Env) (c : SendCall) (s : Sock) (hs : c.Sendable s) (hf : ∀ o ∈ s.out.sched, o.fine = true) :
    (∀ o ∈ (send env c s).2.out.sched, o.fine = true) ∧ (send env c s).2.config = s.config ∧
    (((send env c s).1 = .ret () ∧ (send env c s).2.out.written = s.out.written ++ (c.frame env s).encode ∧ (send env c s).2.rngPos = s.rngPos + if s.config.maskOutgoingMessages then 4 else 0) ∨
      ((send env c s).1 = .block ∧ ∃ part, part <+: (c.frame env s).encode ∧ (send env c s).2.out.written = s.out.written ++ part)) := by
  have hcfg := (send_keeps env c s).config
  have key : ∀ (x : Exit Unit) (s' : Sock), send env c s = (x, s') → (∀ e, x ≠ .throw e) → (∀ u, x ≠ .ub u) → (x = .ret () → s'.out.written = s.out.written ++ (c.frame env s).encode ∧ s'.rngPos = s.rngPos + if s.config.maskOutgoingMessages then 4 else 0) →
      (x ≠ .ret () → ∃ part, part <+: (c.frame env s).encode ∧ s'.out.written = s.out.written ++ part) →
      (((send env c s).1 = .ret () ∧ (send env c s).2.out.written = s.out.written ++ (c.frame env s).encode ∧ (send env c s).2.rngPos = s.rngPos + if s.config.maskOutgoingMessages then 4 else 0) ∨
      ((send env c s).1 = .block ∧ ∃ part, part <+: (c.frame env s).encode ∧ (send env c s).2.out.written = s.out.written ++ part)) := by
    intro x s' e h1 h2 h3 h4
    rw [e]
    cases x with
    | ret _ => exact .inl ⟨rfl, h3 rfl⟩
    | throw er => exact absurd rfl (h1 er)
    | block => exact .inr ⟨rfl, h4 nofun⟩
    | ub u => exact absurd rfl (h2 u)
  by_cases hc : ∀ fin op m, c ≠ .oneFrame fin op m
  · have hfl : Flows (fun _ => True) (send env c) := by
      cases c with
      | oneFrame fin op m => exact absurd rfl (hc fin op m)
      | _ => exact sendOrStop_flows _ _ _
    obtain ⟨h1, -, h3⟩ := hfl s hf
    obtain ⟨x, s', e, g1, g2, g3, -⟩ := C04_C21_any_send env c hc s hs
    refine ⟨h3, hcfg, key x s' e (fun er h => h1 er (by rw [e]; exact h)) g1 (fun h => ⟨(g2 h).1, by rw [(g2 h).2]⟩) fun h => ?_⟩
    obtain ⟨part, p1, -, p2⟩ := g3 h
    exact ⟨part, p1, p2⟩
  · cases c with
    | oneFrame fin op m =>
      have hs' : OatWS.Sendable s (some (m.getD [])) := hs
      have hfr : (SendCall.oneFrame fin op m).frame env s = frameFor env s fin op (some (m.getD [])) := rfl
      obtain ⟨h1, h2, h3⟩ := sendOneFrame_flows env fin op m s hf
      obtain ⟨x, s', e, g1, g2, g3, -⟩ := C21_sendOneFrame env fin op (some (m.getD [])) s hs'
      rw [← sendOneFrame_getD] at e
      have hsend := send_oneFrame e
      rw [e] at h1 h2 h3
      refine ⟨by rw [hsend]; exact h3, hcfg, key _ s' hsend ?_ ?_ ?_ ?_⟩
      · cases x with
        | throw er => exact absurd rfl (h1 er)
        | _ => exact nofun
      · cases x with
        | ub u => exact absurd rfl (g1 u)
        | _ => exact nofun
      · cases x with
        | ret b =>
          have hb : b = true := h2 b rfl
          subst hb
          rw [hfr]
          refine fun _ => ⟨g2 rfl, ?_⟩
          rw [sendOneFrame_getD] at e
          have := (C04_sendOneFrame env fin op _ s s' hs' e).2
          rw [this]
        | _ => exact nofun
      · intro hne
        have hx : x ≠ .ret true := by
          rintro rfl
          exact hne rfl
        obtain ⟨part, p1, -, p2⟩ := g3 hx
        exact ⟨part, p1, p2⟩
    | _ => exact absurd (fun _ _ _ => nofun) hc

end OatWS
