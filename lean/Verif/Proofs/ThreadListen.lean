import Verif.Proofs.ThreadFrame
import Verif.Proofs.AsyncListen
/-! The loop of `listen`, for a thread among other threads. -/

namespace OatWS.Threads
open RFC6455 Async Prog

theorem complete_cons {o b ds o1 bs ds' o2} (h : OneFrame o b ds (.next o1)) (h' : Complete o1 bs ds' o2) : Complete o (b ++ bs) (ds ++ ds') o2 := by
  induction h' with
  | nil =>
    have := Complete.snoc (.nil (o := o)) h
    rwa [List.nil_append, List.nil_append, ← List.append_nil b, ← List.append_nil ds] at this
  | snoc _ hf ih => rw [← List.append_assoc, ← List.append_assoc]; exact .snoc ih hf

/-- The loop is left. -/
def Ends (x : Out Unit) : Prop := x = .ret () ∨ ∃ e, x = .throw e

/-- How the end of the loop shows; `fe` is the fate of the last frame. -/
def LoopOut (C : Rules) (env : Env) (fe : FrameEnd) (w : View) (x : Out Unit) : Prop :=
  match fe with
  | .next _ => x = .ret () ∧ w.off ≠ none
  | .over .stopped => False
  | .over .incomplete => x = .reading ∨ Ends x ∧ (C.Fine → w.bytes = [])
  | .over .interrupted => x = .writing ∨ ¬ env.Calm ∧ (Ends x ∨ x = .ub .indexOverflow)
  | .over _ => Ends x

/-- Where the loop is: `k0` bytes are complete frames. -/
def LoopPost (C : Rules) (env : Env) (o : Bool) (v : View) (x : Out Unit) (w : View) : Prop :=
  ∃ k0 k ds0 o0 ds1 fe evs, k0 ≤ k ∧ After v k evs w ∧ Complete o (v.bytes.take k0) ds0 o0 ∧ OneFrame o0 ((v.bytes.take k).drop k0) ds1 fe ∧
    RendersBy C.listener C.size evs (ds0 ++ ds1) ∧ (∀ n, w.off = some n → n ≤ v.bytes.length - k0) ∧ LoopOut C env fe w x

theorem LoopOut.lower {C env fe w x} (h : LoopOut C env fe w x) : LoopOut C env fe w.lower x := by
  cases fe with
  | next o =>
    refine ⟨h.1, ?_⟩
    unfold View.lower
    cases hw : w.off with
    | none => exact absurd hw h.2
    | some n => simp
  | over r => cases r <;> exact h

theorem LoopPost.lower {C env o v x w} (h : LoopPost C env o v x w) : LoopPost C env o v x w.lower := by
  obtain ⟨k0, k, ds0, o0, ds1, fe, evs, h1, h2, h3, h4, h5, h6, h7⟩ := h
  refine ⟨k0, k, ds0, o0, ds1, fe, evs, h1, h2.to (.lower w), h3, h4, h5, ?_, h7.lower⟩
  intro n hn
  have hl := h2.length
  have hle := h2.le
  unfold View.lower at hn
  cases hw : w.off with
  | some m =>
    rw [hw] at hn
    exact h6 n (by rw [hw]; exact hn)
  | none =>
    rw [hw] at hn
    injection hn with hn
    omega

theorem listenLoopT_wp (C : Rules) (env : Env) (henv : C.Reacts env) (hB : 0 < C.size) (fuel : Nat) (n : Nat) (h : Header)
    (v : View) (o : Bool) (ho : OpenIs o v.last) (hoff : ∀ n, v.off = some n → n ≤ v.bytes.length) :
    Wp C (listenLoopT env fuel n h) v (LoopPost C env o v) := by
  induction n generalizing h v o with
  | zero => trivial
  | succ n ih =>
    refine Wp.andThen (Wp.mono (iterateFrameT_handles C env henv hB fuel h v o ho) ?_)
    rintro x w ⟨k, ds, fe, evs, ha, hs, hr, hout⟩
    have hwoff : ∀ n, w.off = some n → n ≤ v.bytes.length - 0 := by
      intro n hn
      rcases ha.off with h1 | ⟨_, m, h2, h3⟩
      · exact hoff n (by rw [← h1]; exact hn)
      · rw [h2] at hn; injection hn with hn; omega
    have post : ∀ y : Out Unit, LoopOut C env fe w y → LoopPost C env o v y w := fun y hy =>
      ⟨0, k, [], o, ds, fe, evs, by omega, ha, by simpa using Complete.nil, by simpa using hs, by simpa using hr, hwoff, hy⟩
    cases fe with
    | next o1 =>
      obtain ⟨⟨h', rfl, hne⟩, hopen⟩ := hout
      dsimp only [Out.seq]
      rw [if_pos (fun e => hne (congrArg some e))]
      refine ⟨trivial, (fun ⟨_, e⟩ => by cases e), (fun ⟨_, e⟩ => by cases e), ?_⟩
      rintro u hu b v' ⟨rfl, rfl⟩
      have hau := (After.or hu).1
      have hlu := (After.or hu).2
      cases hoffu : v'.off with
      | some m =>
        show LoopPost C env o v (.ret ()) v'
        rcases hu with rfl | rfl
        · exact post _ ⟨rfl, by rw [hoffu]; exact fun h => by cases h⟩
        · have := hwoff
          refine ⟨0, k, [], o, ds, .next o1, evs, by omega, ha.to hau, by simpa using Complete.nil, by simpa using hs, by simpa using hr, ?_, rfl, by rw [hoffu]; exact fun h => by cases h⟩
          intro n hn
          rcases (ha.to hau).off with h1 | ⟨_, m, h2, h3⟩
          · exact hoff n (by rw [← h1]; exact hn)
          · rw [h2] at hn; injection hn with hn; omega
      | none =>
        show Wp C (listenLoopT env fuel n h') v' _
        refine Wp.mono (ih h' v' o1 (by rw [hlu]; exact hopen) (by intro n hn; rw [hoffu] at hn; cases hn)) ?_
        rintro y z ⟨k0, k', ds0, o0, ds1, fe', evs', g1, g2, g3, g4, g5, g6, g7⟩
        have hav : After v k evs v' := ha.to hau
        have hb : v'.bytes = v.bytes.drop k := hav.bytes
        have hlen := hav.length
        have hle := ha.le
        rw [hb] at g3 g4
        have hk0 : List.take (k + k0) v.bytes = List.take k v.bytes ++ List.take k0 (v.bytes.drop k) := List.take_add
        refine ⟨k + k0, k + k', ds ++ ds0, o0, ds1, fe', evs ++ evs', by omega, hav.trans g2, ?_, ?_, ?_, ?_, g7⟩
        · rw [hk0]; exact complete_cons hs g3
        · rw [List.take_add, List.drop_append]
          rw [List.length_take, Nat.min_eq_left hle, show k + k0 - k = k0 by omega]
          rw [List.drop_eq_nil_of_le (by rw [List.length_take]; omega), List.nil_append]
          exact g4
        · rw [List.append_assoc]; exact hr.append g5
        · intro n hn
          have := g6 n hn
          omega
    | over r =>
      cases r with
      | closed =>
        obtain ⟨h', rfl, h8⟩ := hout
        dsimp only [Out.seq]
        rw [if_neg (by
          rcases h8 with h8 | h8
          · cases h8
          · injection h8 with h8
            exact fun h => h h8)]
        exact post _ (.inl rfl)
      | stopped => exact hout.elim
      | incomplete =>
        rcases hout with rfl | ⟨e, he, rfl, hf⟩
        · exact post _ (.inl rfl)
        · exact post _ (.inr ⟨.inr ⟨e, rfl⟩, hf⟩)
      | badControl =>
        have hout : x = _ := hout
        subst hout
        exact post _ (.inr ⟨_, rfl⟩)
      | badContinuation =>
        have hout : x = _ := hout
        subst hout
        exact post _ (.inr ⟨_, rfl⟩)
      | badStart =>
        have hout : x = _ := hout
        subst hout
        exact post _ (.inr ⟨_, rfl⟩)
      | badOpcode =>
        have hout : x = _ := hout
        subst hout
        exact post _ (.inr ⟨_, rfl⟩)
      | interrupted =>
        rcases hout with rfl | ⟨hc, ⟨e, rfl⟩ | rfl⟩
        · exact post _ (.inl rfl)
        · exact post _ (.inr ⟨hc, .inl (.inr ⟨_, rfl⟩)⟩)
        · exact post _ (.inr ⟨hc, .inr rfl⟩)

end OatWS.Threads
