import Verif.Proofs.ThreadHealthy
import Verif.Proofs.AsyncHealthy
import Verif.Props.NetworkLive
/-! Several threads on a connection that does not fail. -/

namespace OatWS.Threads
open Prog Async

/-- The thread, `b`: `listen` has begun. -/
def WellThread (S : Prop) (i : Nat) (t : Prog Unit) (b : Bool) : Prop := Well S t b (fun b _ => S → i = 0 → b = true) fun b _ => S → i = 0 → b = true

/-- What holds of all threads. -/
structure Healthy (S : Prop) (p : Pool) : Prop where
  out : ∀ o ∈ p.st.sock.out.sched, o.fine = true
  size : S → 0 < p.st.sock.config.readBufferSize
  threads : ∀ i t, p.threads[i]? = some t → ∃ b, (S → b = true → p.st.sock.listening = true) ∧ WellThread S i t b

/-- What a step does. -/
structure Healthy.Step (S : Prop) (a : Act) (r : a.Res) (st st' : St) : Prop where
  gives : Gives S a r
  out : SpentOut st.sock.out st'.sock.out
  inp : (∀ n, a = .read n → 0 < n) → SpentIn st.inp st'.inp
  listening : a ≠ .setListening false → st.sock.listening = true → st'.sock.listening = true
  begun : a = .setListening true → st'.sock.listening = true
  size : (∀ c, a = .setConfig c → 0 < c.readBufferSize) → 0 < st.sock.config.readBufferSize → 0 < st'.sock.config.readBufferSize

theorem lowWrite_fine {o : IoOutcome} {d : List UInt8} (ho : o.fine = true) (hd : d ≠ []) : (lowWrite o d = .retry ∧ o.moves = false) ∨ ∃ k, lowWrite o d = .wrote k ∧ 0 < k ∧ k ≤ d.length := by
  have : 0 < d.length := List.length_pos_iff.mpr hd
  cases o with
  | upTo m => exact .inr ⟨_, rfl, by omega, by omega⟩
  | retry => exact .inl ⟨rfl, rfl⟩
  | zero => cases ho
  | broken => cases ho

theorem exec_healthy {S : Prop} {env : Env} {a : Act} {st st' : St} {r : a.Res} (hf : ∀ o ∈ st.sock.out.sched, o.fine = true) (hw : ∀ d, a = .write d → d ≠ []) (hs : S → 0 < st.sock.config.readBufferSize)
    (hr : Ready a st = true) (h : exec env a st = some (r, st')) : Healthy.Step S a r st st' := by
  cases a with
  | write d =>
    dsimp only [exec] at h
    cases e : st.sock.out.sched with
    | nil => rw [e] at h; cases h
    | cons o sched =>
      rw [e] at h
      dsimp only at h
      rcases lowWrite_fine (hf o (by rw [e]; exact List.mem_cons_self ..)) (hw d rfl) with ⟨h1, h2⟩ | ⟨k, h1, h2, h3⟩
      · rw [h1] at h
        injection h with h; injection h with e1 e2; subst e1 e2
        exact ⟨.inl rfl, ⟨[o], e, by simp [List.countP_cons, h2]⟩, fun _ => .refl _, fun _ h => h, fun h => (by cases h), fun _ h => h⟩
      · rw [h1] at h
        injection h with h; injection h with e1 e2; subst e1 e2
        refine ⟨.inr ⟨k, rfl, h2, h3⟩, ⟨[o], e, ?_⟩, fun _ => .refl _, fun _ h => h, fun h => (by cases h), fun _ h => h⟩
        show List.countP _ [o] + st.sock.out.written.length ≤ (st.sock.out.written ++ d.take k).length
        have : List.countP IoOutcome.moves [o] ≤ 1 := List.countP_le_length
        rw [List.length_append, List.length_take]
        omega
  | read n =>
    dsimp only [exec] at h
    cases e : st.inp.sched with
    | nil => rw [e] at h; cases h
    | cons o sched =>
      rw [e] at h
      dsimp only at h
      refine ⟨trivial, ?_, fun hn => ?_, ?_, fun h => (by cases h), ?_⟩
      · injection h with h; injection h with e1 e2; subst e1 e2; exact .refl _
      · have hn := hn n rfl
        cases o with
        | upTo m =>
          have hb : st.inp.bytes ≠ [] := by
            unfold Ready at hr
            rw [e] at hr
            simpa using hr
          obtain ⟨k, k1, k2, k3, e'⟩ := lowRead_spent (m := m) (count := n) hb hn
          rw [e'] at h
          injection h with h; injection h with e1 e2; subst e1 e2
          refine ⟨[.upTo m], e, ?_⟩
          show 1 + (st.inp.bytes.drop k).length ≤ _
          rw [List.length_drop]; omega
        | retry =>
          injection h with h; injection h with e1 e2; subst e1 e2
          exact ⟨[.retry], e, Nat.le_of_eq (Nat.zero_add _)⟩
        | zero =>
          injection h with h; injection h with e1 e2; subst e1 e2
          exact ⟨[.zero], e, Nat.le_of_eq (Nat.zero_add _)⟩
        | broken =>
          injection h with h; injection h with e1 e2; subst e1 e2
          exact ⟨[.broken], e, Nat.le_of_eq (Nat.zero_add _)⟩
      · injection h with h; injection h with e1 e2; subst e1 e2; exact fun _ h => h
      · injection h with h; injection h with e1 e2; subst e1 e2; exact fun _ h => h
  | getConfig =>
    injection h with h; injection h with e1 e2; subst e1 e2
    exact ⟨hs, .refl _, fun _ => .refl _, fun _ h => h, fun h => (by cases h), fun _ h => h⟩
  | setConfig c =>
    injection h with h; injection h with e1 e2; subst e1 e2
    exact ⟨trivial, .refl _, fun _ => .refl _, fun _ h => h, fun h => (by cases h), fun h _ => h c rfl⟩
  | setListening v =>
    injection h with h; injection h with e1 e2; subst e1 e2
    refine ⟨trivial, .refl _, fun _ => .refl _, fun h _ => ?_, fun h => (by cases h; rfl), fun _ h => h⟩
    cases v
    · exact absurd rfl h
    · rfl
  | _ =>
    injection h with h; injection h with e1 e2; subst e1 e2
    exact ⟨trivial, .refl _, fun _ => .refl _, fun _ h => h, fun h => (by cases h), fun _ h => h⟩

/-- A program that makes a step. -/
theorem Well.step {S : Prop} {α : Type} {b : Bool} {a : Act} {k : a.Res → Prog α} {Q E} (h : Well S (.act a k) b Q E) :
    (∀ d, a = .write d → d ≠ []) ∧ a ≠ .returned false ∧ (S → ∀ n, a = .read n → 0 < n ∧ b = true) ∧ (S → a ≠ .setListening false) ∧ (S → ∀ c, a = .setConfig c → 0 < c.readBufferSize) ∧
      ∀ r, Gives S a r → ∃ b', (b' = true → b = true ∨ a = .setListening true) ∧ Well S (k r) b' Q E := by
  cases a with
  | read n => exact ⟨fun _ h => (by cases h), fun h => (by cases h), fun s m e => (by cases e; exact ⟨(h.1 s).2, (h.1 s).1⟩), fun _ h => (by cases h), fun _ _ h => (by cases h), fun r _ => ⟨b, .inl, h.2 r⟩⟩
  | setListening v =>
    refine ⟨fun _ h => (by cases h), fun h => (by cases h), fun _ _ e => (by cases e), fun s e => ?_, fun _ _ h => (by cases h), fun r _ => ⟨b || v, fun hb => ?_, h.2 r⟩⟩
    · injection e with e; subst e; cases h.1 s
    · cases v
      · rw [Bool.or_false] at hb; exact .inl hb
      · exact .inr rfl
  | setConfig c => exact ⟨fun _ h => (by cases h), fun h => (by cases h), fun _ _ e => (by cases e), fun _ h => (by cases h), fun s c' e => (by cases e; exact h.1 s), fun r _ => ⟨b, .inl, h.2 r⟩⟩
  | write d => exact ⟨fun d' e => (by cases e; exact h.1), fun h => (by cases h), fun _ _ e => (by cases e), fun _ h => (by cases h), fun _ _ e => (by cases e), fun r hr => ⟨b, .inl, h.2 r hr⟩⟩
  | returned v => exact ⟨fun _ h => (by cases h), fun e => (by injection e with e; subst e; cases h.1), fun _ _ e => (by cases e), fun _ h => (by cases h), fun _ _ e => (by cases e), fun r _ => ⟨b, .inl, h.2 r⟩⟩
  | _ => exact ⟨fun _ h => (by cases h), fun h => (by cases h), fun _ _ e => (by cases e), fun _ h => (by cases h), fun _ _ e => (by cases e), fun r hr => ⟨b, .inl, h r hr⟩⟩

/-- While bytes arrive. -/
theorem Fed.healthy {S : Prop} {env : Env} {p q : Pool} {log fed} (h : Fed env p log fed q) (hp : Healthy S p) :
    Healthy S q ∧ (∀ e ∈ log, e.failed = false) ∧ SpentOut p.st.sock.out q.st.sock.out ∧
      (S → ∃ used, p.st.inp.sched = used ++ q.st.inp.sched ∧ used.countP IoOutcome.moves + q.st.inp.bytes.length ≤ p.st.inp.bytes.length + fed.length) := by
  induction h with
  | refl => exact ⟨hp, fun _ h => (by cases h), .refl _, fun _ => ⟨[], rfl, by simp⟩⟩
  | @own log fed q i a k r st' _ h1 h2 h3 ih =>
    obtain ⟨ih1, ih2, ih3, ih4⟩ := ih
    obtain ⟨b, hb, hwt⟩ := ih1.threads _ _ h1
    obtain ⟨w1, w2, w3, w4, w5, w6⟩ := Well.step hwt
    have hst := exec_healthy (S := S) ih1.out w1 ih1.size h2 h3
    refine ⟨⟨?_, fun s => hst.size (w5 s) (ih1.size s), fun j t ht => ?_⟩, fun e he => ?_, ih3.trans hst.out, fun s => ?_⟩
    · intro o ho
      obtain ⟨used, e, -⟩ := hst.out
      exact ih1.out o (by rw [e]; exact List.mem_append_right _ ho)
    · by_cases hij : i = j
      · subst hij
        rw [List.getElem?_set_self (by rw [List.getElem?_eq_some_iff] at h1; exact h1.1)] at ht
        injection ht with ht
        subst ht
        obtain ⟨b', hb', hw'⟩ := w6 r hst.gives
        refine ⟨b', fun s e => ?_, hw'⟩
        rcases hb' e with e | e
        · exact hst.listening (w4 s) (hb s e)
        · exact hst.begun e
      · rw [List.getElem?_set_ne hij] at ht
        obtain ⟨b', hb', hw'⟩ := ih1.threads _ _ ht
        exact ⟨b', fun s e => hst.listening (w4 s) (hb' s e), hw'⟩
    · rcases List.mem_append.mp he with he | he
      · exact ih2 e he
      · rw [List.mem_singleton.mp he]
        exact decide_eq_false w2
    · obtain ⟨u, e1, e2⟩ := ih4 s
      obtain ⟨v, e3, e4⟩ := hst.inp fun n e => (w3 s n e).1
      refine ⟨u ++ v, by rw [e1, e3, List.append_assoc], ?_⟩
      rw [List.countP_append]
      show _ + _ + st'.inp.bytes.length ≤ _
      omega
  | feed bs _ ih =>
    obtain ⟨ih1, ih2, ih3, ih4⟩ := ih
    refine ⟨⟨ih1.out, ih1.size, ih1.threads⟩, ih2, ih3, fun s => ?_⟩
    obtain ⟨u, e1, e2⟩ := ih4 s
    refine ⟨u, e1, ?_⟩
    show _ + (_ ++ bs).length ≤ _ + (_ ++ bs).length
    rw [List.length_append, List.length_append]
    omega

/-- At rest the listening thread has begun to listen. -/
theorem Fed.begun {env : Env} {p q : Pool} {log fed} (h : Fed env p log fed q) (hp : Healthy True p) (hl : AllLive p) (hrest : NoStep env q) (hout : q.st.sock.out.sched ≠ []) (hu : ∀ u, Prog.ub u ∉ q.threads)
    (h0 : 0 < p.threads.length) : q.st.sock.listening = true := by
  obtain ⟨hq, -⟩ := h.healthy hp
  have hlen := h.indices.1
  obtain ⟨t, ht⟩ : ∃ t, q.threads[0]? = some t := ⟨q.threads[0]'(by omega), List.getElem?_eq_getElem _⟩
  obtain ⟨b, hb, hw⟩ := hq.threads _ _ ht
  refine hb trivial ?_
  rcases h.rest hl hrest t (List.mem_of_getElem? ht) with he | ⟨n, k, rfl, -⟩ | ⟨d, k, rfl, e⟩
  · rcases he with rfl | ⟨e, rfl⟩ | ⟨u, rfl⟩
    · exact hw trivial rfl
    · exact hw trivial rfl
    · exact absurd (List.mem_of_getElem? ht) (hu u)
  · exact ((Well.step hw).2.2.1 trivial n rfl).2
  · exact absurd e hout

end OatWS.Threads
