import Verif.Proofs.ThreadUser
/-! The payload loop of a listening thread. -/

namespace OatWS.Threads
open RFC6455 Async Prog

/-- The callbacks for chunks, each to its listener. -/
def chunkCalls (op : UInt8) (cs : List (Nat × List UInt8)) : List Event := cs.map fun c => Event.readMessage c.1 op c.2

/-- A read in the payload loop. -/
theorem wp_read {α : Type} {C : Rules} {n : Nat} {k : ReadRes → Prog α} {v : View} {Q : Out α → View → Prop} (hn : 0 < n)
    (h0 : Q .reading v)
    (hdata : ∀ bs v', After v bs.length [] v' → v'.last = v.last → bs = v.bytes.take bs.length → 0 < bs.length → bs.length ≤ n →
      Wp C (k (.data bs)) v' Q)
    (hretry : ∀ v', After v 0 [] v' → v'.last = v.last → Wp C (k .retry) v' Q)
    (hzero : ∀ v', After v 0 [] v' → v'.last = v.last → (C.Fine → v.bytes = []) → Wp C (k .zero) v' Q)
    (hbroken : ∀ v', After v 0 [] v' → v'.last = v.last → ¬ C.Fine → Wp C (k .broken) v' Q) :
    Wp C (.act (.read n) k) v Q := by
  refine ⟨trivial, fun _ => h0, (fun ⟨_, e⟩ => by cases e), ?_⟩
  rintro u hu r v' ⟨o, ho, hr, hv'⟩
  obtain ⟨hau, hlu⟩ := After.or hu
  have hub : u.bytes = v.bytes := by rcases hu with rfl | rfl <;> rfl
  rw [hub] at hr
  have hl' : v'.last = v.last := by rw [hv']; exact hlu
  have hav : ∀ j, j ≤ v.bytes.length → v'.bytes = v.bytes.drop j → After v j [] v' := by
    intro j hj hb
    refine ⟨hj, hb, ?_, ?_⟩
    · rw [hv']; exact hau.trace
    · rw [hv']; exact hau.off
  cases r with
  | data bs =>
    obtain ⟨n, rfl, hbs, hb', hpos, hle, hle'⟩ := lowRead_data hr
    exact hdata bs v' (hav _ hle' hb') hl' hbs hpos hle
  | retry => exact hretry v' (hav 0 (by omega) (by rw [lowRead_other hr (by simp)]; rfl)) hl'
  | zero =>
    exact hzero v' (hav 0 (by omega) (by rw [lowRead_other hr (by simp)]; rfl)) hl' fun hf => lowRead_zero hr (hf o ho) hn
  | broken =>
    refine hbroken v' (hav 0 (by omega) (by rw [lowRead_other hr (by simp)]; rfl)) hl' fun hf => ?_
    have := lowRead_broken hr
    rw [hf o ho] at this
    cases this

/-- A step that only looks at something. -/
theorem wp_getConfig {α : Type} {C : Rules} {k : Config → Prog α} {v : View} {Q : Out α → View → Prop}
    (h : ∀ (c : Config) (u : View), c.readBufferSize = (C.size : Int) → After v 0 [] u → u.last = v.last → Wp C (k c) u Q) : Wp C (.act .getConfig k) v Q := by
  refine ⟨trivial, (fun ⟨_, e⟩ => by cases e), (fun ⟨_, e⟩ => by cases e), ?_⟩
  rintro u hu c v' ⟨hc, rfl⟩
  exact h c v' hc (After.or hu).1 (After.or hu).2

/-- The payload of a data frame. -/
theorem loopT_data (C : Rules) (env : Env) (henv : C.Reacts env) (hB : 0 < C.size) (fuel : Nat) (h : Header) (N : Nat) (hN : N = h.payloadLength.toNat)
    (n : Nat) (v : View) (p : Nat) (hp : p ≤ N) (acc : List UInt8) :
    Wp C (readPayloadLoopT env fuel h false C.size n p acc) v fun x w => ∃ k cs, k ≤ N - p ∧
      (∀ c ∈ cs, C.listener c.1 ∧ 0 < c.2.length ∧ c.2.length ≤ C.size) ∧
      (cs.map Prod.snd).flatten = decodeFrom h.key p (v.bytes.take k) ∧ After v k (chunkCalls h.opcode cs) w ∧ w.last = v.last ∧
      ((x = .ret acc ∧ k = N - p) ∨
       (k < N - p ∧ (x = .reading ∨ x = .throw .connectionState ∧ (C.Fine → k = v.bytes.length))) ∨
       (0 < k ∧ Breaks env x)) := by
  have hdn : ∀ p, decodeFrom h.key p [] = [] := by intro p; cases h.key <;> simp [decodeFrom, applyKeyFrom]
  induction n generalizing v p with
  | zero =>
    unfold readPayloadLoopT
    by_cases hlt : (p : Int) < h.payloadLength
    · rw [if_pos hlt]; trivial
    · rw [if_neg hlt]
      exact ⟨0, [], by omega, nofun, by simp [hdn], .refl v, rfl, .inl ⟨rfl, by omega⟩⟩
  | succ n ih =>
    unfold readPayloadLoopT
    by_cases hlt : (p : Int) < h.payloadLength
    · rw [if_pos hlt]
      have hpN : p < N := by omega
      have hd := desired_eq (B := C.size) hN hpN
      refine wp_getConfig fun c u hc hau hlu => ?_
      rw [hc]
      dsimp only
      generalize hdes : (if (C.size : Int) > h.payloadLength - p then h.payloadLength - p else (C.size : Int)) = d at hd
      have hd0 : ¬ d < 0 := by omega
      rw [if_neg hd0, hd]
      have hub : u.bytes = v.bytes := hau.bytes
      refine wp_read (by omega) ⟨0, [], by omega, nofun, by simp [hdn], hau, hlu, .inr (.inl ⟨by omega, .inl rfl⟩)⟩ ?_ ?_ ?_ ?_
      · intro bs v' hav hl' hbs hpos hle
        have hav := hau.zero hav
        have hl' := hl'.trans hlu
        rw [hub] at hbs
        dsimp only
        rw [if_neg (by omega), if_neg (by simp), Int.toNat_natCast, decode_eq]
        generalize hcd : decodeFrom h.key p bs = cd
        have hcl : cd.length = bs.length := by rw [← hcd, decodeFrom_length]
        refine Wp.andThen (Wp.mono (callListenerT_wp C env henv fuel _ v') ?_)
        rintro x w ⟨l, hl, haw, hlw, hx⟩
        have hone : C.listener l ∧ 0 < cd.length ∧ cd.length ≤ C.size := ⟨hl, by omega, by omega⟩
        have haw' : After v bs.length [Event.readMessage l h.opcode cd] w := by
          have := hav.trans haw
          rwa [Nat.add_zero, List.nil_append] at this
        rcases hx with rfl | hx
        · have hpc : (p : Int) + (bs.length : Int) = ((p + bs.length : Nat) : Int) := by omega
          show Wp C (readPayloadLoopT env fuel h false C.size n ((p : Int) + bs.length) acc) w _
          rw [hpc]
          refine Wp.mono (ih w (p + bs.length) (by omega)) ?_
          rintro y z ⟨k, cs, h1, h2, h3, h4, h5, h6⟩
          have hlen := haw'.length
          refine ⟨bs.length + k, (l, cd) :: cs, by omega, ?_, ?_, ?_, h5.trans (hlw.trans hl'), ?_⟩
          · intro c' hc'
            rcases List.mem_cons.mp hc' with rfl | hc'
            · exact hone
            · exact h2 c' hc'
          · rw [List.take_add, decodeFrom_append, List.map_cons, List.flatten_cons, h3, ← haw'.bytes, ← hbs, hcd]
          · exact haw'.trans h4
          · rcases h6 with ⟨h6, h7⟩ | ⟨h6, h7⟩ | ⟨h6, h7⟩
            · exact .inl ⟨h6, by omega⟩
            · refine .inr (.inl ⟨by omega, ?_⟩)
              rcases h7 with h7 | ⟨h7, h8⟩
              · exact .inl h7
              · refine .inr ⟨h7, fun hf => ?_⟩
                have := h8 hf
                have := haw'.le
                omega
            · exact .inr (.inr ⟨by omega, h7⟩)
        · have hres : ∃ k cs, k ≤ N - p ∧ (∀ c ∈ cs, C.listener c.1 ∧ 0 < c.2.length ∧ c.2.length ≤ C.size) ∧
              (cs.map Prod.snd).flatten = decodeFrom h.key p (v.bytes.take k) ∧ After v k (chunkCalls h.opcode cs) w ∧ w.last = v.last ∧ 0 < k := by
            refine ⟨bs.length, [(l, cd)], by omega, ?_, ?_, haw', hlw.trans hl', hpos⟩
            · intro c' hc'
              rw [List.mem_singleton] at hc'
              rw [hc']; exact hone
            · rw [← hbs, hcd]; simp
          obtain ⟨k, cs, h1, h2, h3, h4, h5, h6⟩ := hres
          rcases hx with rfl | ⟨hc, ⟨e, rfl⟩ | rfl⟩
          · exact ⟨k, cs, h1, h2, h3, h4, h5, .inr (.inr ⟨h6, .inl rfl⟩)⟩
          · exact ⟨k, cs, h1, h2, h3, h4, h5, .inr (.inr ⟨h6, .inr ⟨hc, .inl ⟨_, rfl⟩⟩⟩)⟩
          · exact ⟨k, cs, h1, h2, h3, h4, h5, .inr (.inr ⟨h6, .inr ⟨hc, .inr rfl⟩⟩)⟩
      · intro v' hav hl'
        have hav := hau.zero hav
        have hvb : v'.bytes = v.bytes := hav.bytes
        refine Wp.mono (ih v' p hp) ?_
        rintro y z ⟨k, cs, h1, h2, h3, h4, h5, h6⟩
        rw [hvb] at h3 h6
        exact ⟨k, cs, h1, h2, h3, hav.zero h4, h5.trans (hl'.trans hlu), h6⟩
      · intro v' hav hl' hz
        refine ⟨0, [], by omega, nofun, by simp [hdn], hau.zero hav, hl'.trans hlu, .inr (.inl ⟨by omega, .inr ⟨rfl, fun hf => ?_⟩⟩)⟩
        rw [← hub, hz hf]; rfl
      · intro v' hav hl' hz
        exact ⟨0, [], by omega, nofun, by simp [hdn], hau.zero hav, hl'.trans hlu, .inr (.inl ⟨by omega, .inr ⟨rfl, fun hf => absurd hf hz⟩⟩)⟩
    · rw [if_neg hlt]
      exact ⟨0, [], by omega, nofun, by simp [hdn], .refl v, rfl, .inl ⟨rfl, by omega⟩⟩

/-- The payload of a control frame: collected, no callback. -/
theorem loopT_short (C : Rules) (env : Env) (hB : 0 < C.size) (fuel : Nat) (h : Header) (N : Nat) (hN : N = h.payloadLength.toNat)
    (n : Nat) (v : View) (p : Nat) (hp : p ≤ N) (acc : List UInt8) :
    Wp C (readPayloadLoopT env fuel h true C.size n p acc) v fun x w => ∃ k, k ≤ N - p ∧ After v k [] w ∧ w.last = v.last ∧
      ((x = .ret (acc ++ decodeFrom h.key p (v.bytes.take k)) ∧ k = N - p) ∨
       (k < N - p ∧ (x = .reading ∨ x = .throw .connectionState ∧ (C.Fine → k = v.bytes.length)))) := by
  have hdn : ∀ p, decodeFrom h.key p [] = [] := by intro p; cases h.key <;> simp [decodeFrom, applyKeyFrom]
  induction n generalizing v p acc with
  | zero =>
    unfold readPayloadLoopT
    by_cases hlt : (p : Int) < h.payloadLength
    · rw [if_pos hlt]; trivial
    · rw [if_neg hlt]
      exact ⟨0, by omega, .refl v, rfl, .inl ⟨by simp [hdn], by omega⟩⟩
  | succ n ih =>
    unfold readPayloadLoopT
    by_cases hlt : (p : Int) < h.payloadLength
    · rw [if_pos hlt]
      have hpN : p < N := by omega
      have hd := desired_eq (B := C.size) hN hpN
      refine wp_getConfig fun c u hc hau hlu => ?_
      rw [hc]
      dsimp only
      generalize hdes : (if (C.size : Int) > h.payloadLength - p then h.payloadLength - p else (C.size : Int)) = d at hd
      have hd0 : ¬ d < 0 := by omega
      rw [if_neg hd0, hd]
      have hub : u.bytes = v.bytes := hau.bytes
      refine wp_read (by omega) ⟨0, by omega, hau, hlu, .inr ⟨by omega, .inl rfl⟩⟩ ?_ ?_ ?_ ?_
      · intro bs v' hav hl' hbs hpos hle
        have hav := hau.zero hav
        have hl' := hl'.trans hlu
        rw [hub] at hbs
        dsimp only
        rw [if_neg (by omega), if_pos rfl, Int.toNat_natCast, decode_eq]
        have hpc : (p : Int) + (bs.length : Int) = ((p + bs.length : Nat) : Int) := by omega
        rw [hpc]
        refine Wp.mono (ih v' (p + bs.length) (by omega) _) ?_
        rintro y z ⟨k, h1, h4, h5, h6⟩
        have hlen := hav.length
        refine ⟨bs.length + k, by omega, (by have := hav.trans h4; rwa [List.append_nil] at this), h5.trans hl', ?_⟩
        rcases h6 with ⟨h6, h7⟩ | ⟨h6, h7⟩
        · refine .inl ⟨?_, by omega⟩
          rw [h6, List.take_add, decodeFrom_append, List.append_assoc, ← hav.bytes, ← hbs]
        · refine .inr ⟨by omega, ?_⟩
          rcases h7 with h7 | ⟨h7, h8⟩
          · exact .inl h7
          · refine .inr ⟨h7, fun hf => ?_⟩
            have := h8 hf
            have := hav.le
            omega
      · intro v' hav hl'
        have hav := hau.zero hav
        have hvb : v'.bytes = v.bytes := hav.bytes
        refine Wp.mono (ih v' p hp acc) ?_
        rintro y z ⟨k, h1, h4, h5, h6⟩
        rw [hvb] at h6
        exact ⟨k, h1, hav.zero h4, h5.trans (hl'.trans hlu), h6⟩
      · intro v' hav hl' hz
        refine ⟨0, by omega, hau.zero hav, hl'.trans hlu, .inr ⟨by omega, .inr ⟨rfl, fun hf => ?_⟩⟩⟩
        rw [← hub, hz hf]; rfl
      · intro v' hav hl' hz
        exact ⟨0, by omega, hau.zero hav, hl'.trans hlu, .inr ⟨by omega, .inr ⟨rfl, fun hf => absurd hf hz⟩⟩⟩
    · rw [if_neg hlt]
      exact ⟨0, by omega, .refl v, rfl, .inl ⟨by simp [hdn], by omega⟩⟩

end OatWS.Threads
