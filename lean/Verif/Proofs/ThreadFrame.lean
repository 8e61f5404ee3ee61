import Verif.Proofs.ThreadPayload
/-! One frame, and the loop of `listen`, for a thread among other threads. -/

namespace OatWS.Threads
open RFC6455 Async Prog

theorem RendersBy.append {L B e1 d1 e2 d2} (h1 : RendersBy L B e1 d1) (h2 : RendersBy L B e2 d2) : RendersBy L B (e1 ++ e2) (d1 ++ d2) := by
  induction h1 with
  | nil => exact h2
  | data hc _ ih => rw [List.append_assoc]; exact .data hc ih
  | endOfMessage hl _ ih => exact .endOfMessage hl ih
  | ping hl _ ih => exact .ping hl ih
  | pong hl _ ih => exact .pong hl ih
  | close hl _ ih => exact .close hl ih

/-- How the end of a frame shows. `op?` is the opcode of the frame. -/
def FrameOut {α : Type} (C : Rules) (env : Env) (fe : FrameEnd) (v w : View) (x : Out α) (op : α → Option UInt8) : Prop :=
  match fe with
  | .next o' => (∃ a, x = .ret a ∧ op a ≠ some OPCODE_CLOSE) ∧ OpenIs o' w.last
  | .over .closed => ∃ a, x = .ret a ∧ (op a = none ∨ op a = some OPCODE_CLOSE)
  | .over .stopped => False
  | .over .incomplete => x = .reading ∨ ∃ e, e.isRead ∧ x = .throw e ∧ (C.Fine → w.bytes = [])
  | .over .badControl => x = .throw .controlTooLong
  | .over .badContinuation => x = .throw .continuationState
  | .over .badStart => x = .throw .continuationExpected
  | .over .badOpcode => x = .throw .unknownFrame
  | .over .interrupted => Breaks env x

/-- What is proved of handling one frame. -/
def HandlesT {α : Type} (C : Rules) (env : Env) (v : View) (spec : List UInt8 → List Delivery → FrameEnd → Prop)
    (op : α → Option UInt8) (x : Out α) (w : View) : Prop :=
  ∃ k ds fe evs, After v k evs w ∧ spec (v.bytes.take k) ds fe ∧ RendersBy C.listener C.size evs ds ∧ FrameOut C env fe v w x op

theorem take_len {v : View} {k evs w} (h : After v k evs w) : (v.bytes.take k).length = k := by
  have := h.le
  rw [List.length_take]; omega

theorem After.empty {v : View} {k evs w} (h : After v k evs w) (hk : k = v.bytes.length) : w.bytes = [] := by
  rw [h.bytes, hk]; simp

/-- The specification of a frame with this header. -/
def FrameSpec (o : Bool) (hd : Hdr) (bs : List UInt8) (ds : List Delivery) (fe : FrameEnd) : Prop :=
  ∀ all, parseHdr all = some (hd, bs) → OneFrame o all ds fe

theorem dataFrameT_handles (C : Rules) (env : Env) (henv : C.Reacts env) (hB : 0 < C.size) (fuel : Nat) (hd : Hdr) (h : Header) (hh : HdrOf hd h)
    (v : View) (o : Bool) (hdata : isDataOpcode hd.opcode) (hmay : mayStart o hd.opcode) (hopen : OpenIs (openAfter o hd) v.last) :
    Wp C (Prog.andThen (readPayloadT env fuel h false) fun _ => .ret ()) v (HandlesT C env v (FrameSpec o hd) fun _ => none) := by
  refine Wp.andThen ?_
  unfold readPayloadT
  rw [if_neg (by simp)]
  refine wp_getConfig fun c u hc hau hlu => ?_
  rw [if_neg (by omega), show c.readBufferSize.toNat = C.size by omega]
  refine Wp.andThen (Wp.mono (loopT_data C env henv hB fuel h _ rfl fuel u 0 (by omega) []) ?_)
  rintro x w ⟨k, cs, h1, h2, h3, h4, h5, h6⟩
  have hub : u.bytes = v.bytes := hau.bytes
  have hN := effectiveLen_eq hh
  have ha : After v k (chunkCalls h.opcode cs) w := hau.zero h4
  have hlast : w.last = v.last := h5.trans hlu
  have hlen := take_len ha
  rw [decodeFrom_zero, hh.key, hub] at h3
  rw [hub] at h6
  have hr : RendersBy C.listener C.size (chunkCalls h.opcode cs) [.data hd.opcode (applyKey? hd.maskKey (v.bytes.take k))] := by
    have := RendersBy.data (op := h.opcode) h2 .nil
    rw [List.append_nil, h3, hh.opcode] at this
    exact this
  rcases h6 with ⟨rfl, hk⟩ | ⟨hk, hx⟩ | ⟨hk, hx⟩
  · show Wp C (Prog.andThen (endMarkerT env fuel h false) fun _ => .ret []) w _
    by_cases hfin : h.fin = true
    · have he : endMarkerT env fuel h false = callListenerT env fuel fun l => .readMessage l h.opcode [] := by
        unfold endMarkerT; rw [if_pos (by simp [hfin])]
      rw [he]
      refine Wp.andThen (Wp.mono (callListenerT_wp C env henv fuel _ w) ?_)
      rintro x z ⟨l, hl, haz, hlz, hx⟩
      have haz := ha.trans haz
      rw [Nat.add_zero] at haz
      have hfin' : hd.fin = true := by rw [← hh.fin]; exact hfin
      have hr2 : RendersBy C.listener C.size (chunkCalls h.opcode cs ++ [Event.readMessage l h.opcode []])
          [.data hd.opcode (applyKey? hd.maskKey (v.bytes.take k)), .endOfMessage hd.opcode] := by
        refine RendersBy.append (d1 := [_]) (d2 := [_]) hr ?_
        rw [← hh.opcode]
        exact .endOfMessage hl .nil
      have hint : HandlesT C env v (FrameSpec o hd) (fun _ => none) (.writing : Out Unit) z ∧ (¬ env.Calm → (∀ e, HandlesT C env v (FrameSpec o hd) (fun _ => none)
          (.throw e : Out Unit) z) ∧ HandlesT C env v (FrameSpec o hd) (fun _ => none) (.ub .indexOverflow : Out Unit) z) := by
        have hs : FrameSpec o hd (v.bytes.take k) [.data hd.opcode (applyKey? hd.maskKey (v.bytes.take k)), .endOfMessage hd.opcode] (.over .interrupted) :=
          fun all hp => OneFrame.interruptedEnd hp hdata hmay (by rw [hN, hlen]; exact hk) hfin'
        exact ⟨⟨k, _, _, _, haz, hs, hr2, .inl rfl⟩, fun hc => ⟨fun e => ⟨k, _, _, _, haz, hs, hr2, .inr ⟨hc, .inl ⟨_, rfl⟩⟩⟩,
          ⟨k, _, _, _, haz, hs, hr2, .inr ⟨hc, .inr rfl⟩⟩⟩⟩
      rcases hx with rfl | rfl | ⟨hc, ⟨e, rfl⟩ | rfl⟩
      · refine ⟨k, _, .next (openAfter o hd), _, haz, fun all hp => ?_, hr2, ⟨(), rfl, by simp⟩, ?_⟩
        · have := OneFrame.data (isOpen := o) hp hdata hmay (by rw [hN, hlen]; exact hk)
          rw [hfin'] at this
          exact this
        · rw [hlz, hlast]; exact hopen
      · exact hint.1
      · exact (hint.2 hc).1 e
      · exact (hint.2 hc).2
    · have he : endMarkerT env fuel h false = .ret () := by
        unfold endMarkerT; rw [if_neg (by simp [hfin])]
      rw [he]
      refine ⟨k, _, .next (openAfter o hd), _, ha, fun all hp => ?_, hr, ⟨(), rfl, by simp⟩, ?_⟩
      · have := OneFrame.data (isOpen := o) hp hdata hmay (by rw [hN, hlen]; exact hk)
        have hfin' : hd.fin = false := by rw [← hh.fin]; simpa using hfin
        rw [hfin'] at this
        exact this
      · rw [hlast]; exact hopen
  · have hs : FrameSpec o hd (v.bytes.take k) [.data hd.opcode (applyKey? hd.maskKey (v.bytes.take k))] (.over .incomplete) :=
      fun all hp => OneFrame.cutData hp hdata hmay (by rw [hN, hlen]; omega)
    rcases hx with rfl | ⟨rfl, hf⟩
    · exact ⟨k, _, _, _, ha, hs, hr, .inl rfl⟩
    · exact ⟨k, _, _, _, ha, hs, hr, .inr ⟨.connectionState, trivial, rfl, fun h => ha.empty (hf h)⟩⟩
  · have hs : FrameSpec o hd (v.bytes.take k) [.data hd.opcode (applyKey? hd.maskKey (v.bytes.take k))] (.over .interrupted) :=
      fun all hp => OneFrame.interruptedData hp hdata hmay (by rw [hlen]; exact hk) (by rw [hN, hlen]; omega)
    rcases hx with rfl | ⟨hc, ⟨e, rfl⟩ | rfl⟩
    · exact ⟨k, _, _, _, ha, hs, hr, .inl rfl⟩
    · exact ⟨k, _, _, _, ha, hs, hr, .inr ⟨hc, .inl ⟨_, rfl⟩⟩⟩
    · exact ⟨k, _, _, _, ha, hs, hr, .inr ⟨hc, .inr rfl⟩⟩

theorem controlFrameT_handles (C : Rules) (env : Env) (henv : C.Reacts env) (hB : 0 < C.size) (fuel : Nat) (hd : Hdr) (h : Header) (hh : HdrOf hd h)
    (v : View) (o : Bool) (ho : OpenIs o v.last) (hc : isControlOpcode hd.opcode) (mk : List UInt8 → Nat → Event)
    (hmk : ∀ p l, C.listener l → RendersBy C.listener C.size [mk p l] [controlDelivery hd.opcode p]) :
    Wp C (Prog.andThen (readPayloadT env fuel h true) fun data => callListenerT env fuel (mk data)) v
      (HandlesT C env v (FrameSpec o hd) fun _ => if hd.opcode = 8 then some OPCODE_CLOSE else none) := by
  refine Wp.andThen ?_
  have hN := effectiveLen_eq hh
  unfold readPayloadT
  by_cases hl : h.payloadLength > 125
  · rw [if_pos (by simp [hl])]
    exact ⟨0, [], .over .badControl, [], .refl v, fun all hp => OneFrame.badControl hp hc ((tooLong_iff hh).mp hl), .nil, rfl⟩
  · rw [if_neg (by simp [hl])]
    have hl' : effectiveLen hd.len ≤ 125 := by
      have := fun h => hl ((tooLong_iff hh).mpr h)
      omega
    refine wp_getConfig fun c u hcs hau hlu => ?_
    rw [if_neg (by omega), show c.readBufferSize.toNat = C.size by omega]
    refine Wp.andThen (Wp.mono (loopT_short C env hB fuel h _ rfl fuel u 0 (by omega) []) ?_)
    rintro x w ⟨k, h1, h4, h5, h6⟩
    have hub : u.bytes = v.bytes := hau.bytes
    have ha : After v k [] w := hau.zero h4
    have hlast : w.last = v.last := h5.trans hlu
    have hlen := take_len ha
    rw [hub] at h6
    rcases h6 with ⟨rfl, hk⟩ | ⟨hk, hx⟩
    · rw [decodeFrom_zero, hh.key, List.nil_append]
      have he : endMarkerT env fuel h true = .ret () := by unfold endMarkerT; rw [if_neg (by simp)]
      generalize hp : applyKey? hd.maskKey (v.bytes.take k) = p
      dsimp only [Out.seq]
      rw [he]
      dsimp only [Prog.andThen, Wp]
      refine Wp.mono (callListenerT_wp C env henv fuel (mk p) w) ?_
      rintro x z ⟨l, hli, haz, hlz, hx⟩
      have haz := ha.trans haz
      rw [Nat.add_zero, List.nil_append] at haz
      have hr := hmk p l hli
      have hkl : (v.bytes.take k).length = effectiveLen hd.len := by rw [hN, hlen]; exact hk
      rcases hx with rfl | hx
      · by_cases h8 : hd.opcode = 8
        · refine ⟨k, _, .over .closed, _, haz, fun all hp' => ?_, hr, ⟨(), rfl, ?_⟩⟩
          · rw [← hp]; exact OneFrame.close hp' h8 hl' hkl
          · rw [if_pos h8]; exact .inr rfl
        · refine ⟨k, _, .next o, _, haz, fun all hp' => ?_, hr, ⟨(), rfl, by rw [if_neg h8]; simp⟩, ?_⟩
          · rw [← hp]; exact OneFrame.pingPong hp' (by unfold isControlOpcode at hc; omega) hl' hkl
          · rw [hlz, hlast]; exact ho
      · refine ⟨k, _, .over .interrupted, _, haz, fun all hp' => ?_, hr, hx⟩
        rw [← hp]; exact OneFrame.interruptedControl hp' hc hl' hkl
    · have hs : FrameSpec o hd (v.bytes.take k) [] (.over .incomplete) :=
        fun all hp => OneFrame.cutControl hp hc hl' (by rw [hN, hlen]; omega)
      rcases hx with rfl | ⟨rfl, hf⟩
      · exact ⟨k, _, _, _, ha, hs, .nil, .inl rfl⟩
      · exact ⟨k, _, _, _, ha, hs, .nil, .inr ⟨.connectionState, trivial, rfl, fun h => ha.empty (hf h)⟩⟩

/-- Steps before the handling of the payload. -/
theorem HandlesT.before {α : Type} {C : Rules} {env : Env} {v u : View} {spec} {op : α → Option UInt8} {x w} (hb : u.bytes = v.bytes)
    (ha : After v 0 [] u) (h : HandlesT C env u spec op x w) : HandlesT C env v spec op x w := by
  obtain ⟨k, ds, fe, evs, h1, h2, h3, h4⟩ := h
  rw [hb] at h2
  exact ⟨k, ds, fe, evs, ha.zero h1, h2, h3, h4⟩

theorem wp_getLast {α : Type} {C : Rules} {k : Int → Prog α} {v : View} {Q : Out α → View → Prop}
    (h : ∀ u, After v 0 [] u → u.last = v.last → Wp C (k v.last) u Q) : Wp C (.act .getLastOpcode k) v Q := by
  refine ⟨trivial, (fun ⟨_, e⟩ => by cases e), (fun ⟨_, e⟩ => by cases e), ?_⟩
  rintro u hu c v' ⟨rfl, rfl⟩
  have := After.or hu
  show Wp C (k v'.last) v' Q
  rw [this.2]
  exact h v' this.1 this.2

theorem wp_setLast {α : Type} {C : Rules} {k : Unit → Prog α} {x : Int} {v : View} {Q : Out α → View → Prop}
    (h : ∀ u, After v 0 [] u → u.last = x → Wp C (k ()) u Q) : Wp C (.act (.setLastOpcode x) k) v Q := by
  refine ⟨trivial, (fun ⟨_, e⟩ => by cases e), (fun ⟨_, e⟩ => by cases e), ?_⟩
  rintro u hu c v' rfl
  exact h _ ((After.or hu).1.last_eq x) rfl

theorem handleFrameT_handles (C : Rules) (env : Env) (henv : C.Reacts env) (hB : 0 < C.size) (fuel : Nat) (hd : Hdr) (h : Header) (hh : HdrOf hd h)
    (v : View) (o : Bool) (ho : OpenIs o v.last) :
    Wp C (handleFrameT env fuel h) v (HandlesT C env v (FrameSpec o hd) fun _ => if hd.opcode = 8 then some OPCODE_CLOSE else none) := by
  have hop : ∀ c : UInt8, h.opcode = c ↔ hd.opcode = c.toNat := fun c => by
    rw [← hh.opcode]; exact ⟨fun e => by rw [e], fun e => UInt8.toNat_inj.mp e⟩
  have hweak : hd.opcode ≠ 8 → (fun _ : Unit => if hd.opcode = 8 then some OPCODE_CLOSE else none) = fun _ => none := by
    intro h8; rw [if_neg h8]
  unfold handleFrameT
  by_cases c0 : h.opcode = OPCODE_CONTINUATION
  · rw [if_pos c0]
    have d0 : hd.opcode = 0 := (hop _).mp c0
    rw [hweak (by omega)]
    refine wp_getLast fun u hau hlu => ?_
    by_cases hlast : v.last < 0
    · rw [if_pos hlast]
      have hof : o = false := by
        cases o
        · rfl
        · simp only [OpenIs, if_true] at ho; omega
      exact ⟨0, [], .over .badContinuation, [], hau, fun all hp => .badContinuation hp d0 hof, .nil, rfl⟩
    · rw [if_neg hlast]
      have hot : o = true := by
        cases o
        · exfalso; simp only [OpenIs] at ho; simp at ho; omega
        · rfl
      refine Wp.mono (dataFrameT_handles C env henv hB fuel hd h hh u o (.inl d0) (by unfold mayStart; rw [if_pos d0]; exact hot)
        (by unfold openAfter; rw [if_pos d0, hlu]; exact ho)) fun x w hx => hx.before hau.bytes hau
  · rw [if_neg c0]
    have hstart : hd.opcode = 1 ∨ hd.opcode = 2 →
        Wp C (Prog.andThen (checkForContinuationT h) fun ok => if ok then Prog.andThen (readPayloadT env fuel h false) fun _ => .ret () else .throw .continuationExpected) v
          (HandlesT C env v (FrameSpec o hd) fun _ : Unit => if hd.opcode = 8 then some OPCODE_CLOSE else none) := by
      intro d12
      rw [hweak (by omega)]
      refine Wp.andThen ?_
      refine wp_getLast fun u hau hlu => ?_
      have h1 : ((OPCODE_TEXT.toNat : Nat) : Int) = 1 := rfl
      have h2 : ((OPCODE_BINARY.toNat : Nat) : Int) = 2 := rfl
      rw [h1, h2]
      by_cases hl : v.last = 1 ∨ v.last = 2
      · rw [if_pos hl]
        have hot : o = true := by
          cases o
          · simp only [OpenIs] at ho; simp at ho; omega
          · rfl
        exact ⟨0, [], .over .badStart, [], hau, fun all hp => .badStart hp d12 hot, .nil, rfl⟩
      · rw [if_neg hl]
        have hof : o = false := by
          cases o
          · rfl
          · simp only [OpenIs, if_true] at ho; exact absurd ho hl
        have hmay : mayStart o hd.opcode := by unfold mayStart; rw [if_neg (by omega)]; exact hof
        have hdat : isDataOpcode hd.opcode := by unfold isDataOpcode; omega
        have go : ∀ last, OpenIs (openAfter o hd) last → ∀ z, After u 0 [] z → z.last = last →
            Wp C (Prog.andThen (readPayloadT env fuel h false) fun _ => .ret ()) z (HandlesT C env v (FrameSpec o hd) fun _ => none) := by
          intro last hlast z haz hlz
          have haz := hau.zero haz
          exact Wp.mono (dataFrameT_handles C env henv hB fuel hd h hh z o hdat hmay (by rw [hlz]; exact hlast)) fun x w hx => hx.before haz.bytes haz
        by_cases hf : h.fin = true
        · rw [if_pos hf]
          refine wp_setLast (go (-1) ?_)
          unfold openAfter
          rw [if_neg (by omega), ← hh.fin, hf]
          rfl
        · rw [if_neg hf]
          refine wp_setLast (go h.opcode.toNat ?_)
          unfold openAfter
          rw [if_neg (by omega), ← hh.fin]
          simp only [hf]
          have := hh.opcode
          simp [OpenIs]
          omega
    by_cases c1 : h.opcode = OPCODE_TEXT
    · rw [if_pos c1]; exact hstart (.inl ((hop _).mp c1))
    · rw [if_neg c1]
      by_cases c2 : h.opcode = OPCODE_BINARY
      · rw [if_pos c2]; exact hstart (.inr ((hop _).mp c2))
      · rw [if_neg c2]
        by_cases c8 : h.opcode = OPCODE_CLOSE
        · rw [if_pos c8]
          have d8 : hd.opcode = 8 := (hop _).mp c8
          exact controlFrameT_handles C env henv hB fuel hd h hh v o ho (.inl d8)
            (fun data l => .onClose l (closeArgs env data).1 (closeArgs env data).2)
            (fun p l hl => by rw [d8, closeArgs_eq env]; exact .close hl .nil)
        · rw [if_neg c8]
          by_cases c9 : h.opcode = OPCODE_PING
          · rw [if_pos c9]
            have d9 : hd.opcode = 9 := (hop _).mp c9
            exact controlFrameT_handles C env henv hB fuel hd h hh v o ho (.inr (.inl d9)) (fun data l => .onPing l data)
              (fun p l hl => by rw [d9]; exact .ping hl .nil)
          · rw [if_neg c9]
            by_cases c10 : h.opcode = OPCODE_PONG
            · rw [if_pos c10]
              have d10 : hd.opcode = 10 := (hop _).mp c10
              exact controlFrameT_handles C env henv hB fuel hd h hh v o ho (.inr (.inr d10)) (fun data l => .onPong l data)
                (fun p l hl => by rw [d10]; exact .pong hl .nil)
            · rw [if_neg c10]
              have e0 := fun h => c0 ((hop _).mpr h)
              have e1 := fun h => c1 ((hop _).mpr h)
              have e2 := fun h => c2 ((hop _).mpr h)
              have e8 := fun h => c8 ((hop _).mpr h)
              have e9 := fun h => c9 ((hop _).mpr h)
              have e10 := fun h => c10 ((hop _).mpr h)
              exact ⟨0, [], .over .badOpcode, [], .refl v, fun all hp => .badOpcode hp (by rintro (h | h | h) <;> contradiction)
                (by rintro (h | h | h) <;> contradiction), .nil, rfl⟩

/-- One call of `iterateFrame`. -/
theorem iterateFrameT_handles (C : Rules) (env : Env) (henv : C.Reacts env) (hB : 0 < C.size) (fuel : Nat) (h : Header)
    (v : View) (o : Bool) (ho : OpenIs o v.last) :
    Wp C (iterateFrameT env fuel h) v (HandlesT C env v (OneFrame o) fun h => some h.opcode) := by
  refine Wp.andThen (Wp.mono (readFrameHeaderT_reads C env fuel h v) ?_)
  rintro x w (⟨k, hd, h', ha, hl, rfl, hp, hh⟩ | ⟨k, ha, hl, hx, hp⟩)
  · refine Wp.andThen (Wp.mono (handleFrameT_handles C env henv hB fuel hd h' hh w o (by rw [hl]; exact ho)) ?_)
    rintro y z ⟨k', ds, fe, evs, g1, g2, g3, g4⟩
    have hone : OneFrame o (v.bytes.take (k + k')) ds fe := by
      rw [List.take_add, ← ha.bytes]
      exact g2 _ (hp _)
    have haz : After v (k + k') evs z := ha.trans g1
    have hop8 : h'.opcode = OPCODE_CLOSE ↔ hd.opcode = 8 := by
      rw [← hh.opcode]; exact ⟨fun e => by rw [e]; rfl, fun e => UInt8.toNat_inj.mp e⟩
    cases fe with
    | next o' =>
      obtain ⟨⟨a, rfl, ha⟩, g9⟩ := g4
      refine ⟨k + k', ds, .next o', evs, haz, hone, g3, ⟨h', rfl, ?_⟩, g9⟩
      intro h8
      injection h8 with h8
      rw [hop8] at h8
      exact ha (by rw [if_pos h8])
    | over r =>
      cases r with
      | closed =>
        obtain ⟨a, rfl, ha⟩ := g4
        refine ⟨k + k', ds, .over .closed, evs, haz, hone, g3, ⟨h', rfl, .inr ?_⟩⟩
        by_cases h8 : hd.opcode = 8
        · exact congrArg some (hop8.mpr h8)
        · exfalso
          cases hone with
          | close hp' h8' =>
            have := hp (List.take k' (v.bytes.drop k))
            rw [← List.take_add, hp'] at this
            injection this with this
            injection this with this
            rw [this] at h8'
            exact h8 h8'
      | stopped => exact absurd g4 (fun h => h)
      | incomplete =>
        rcases g4 with rfl | ⟨e, he, rfl, hf⟩
        · exact ⟨k + k', ds, .over .incomplete, evs, haz, hone, g3, .inl rfl⟩
        · exact ⟨k + k', ds, .over .incomplete, evs, haz, hone, g3, .inr ⟨e, he, rfl, hf⟩⟩
      | badControl =>
        have g4 : y = _ := g4
        subst g4
        exact ⟨k + k', ds, .over .badControl, evs, haz, hone, g3, rfl⟩
      | badContinuation =>
        have g4 : y = _ := g4
        subst g4
        exact ⟨k + k', ds, .over .badContinuation, evs, haz, hone, g3, rfl⟩
      | badStart =>
        have g4 : y = _ := g4
        subst g4
        exact ⟨k + k', ds, .over .badStart, evs, haz, hone, g3, rfl⟩
      | badOpcode =>
        have g4 : y = _ := g4
        subst g4
        exact ⟨k + k', ds, .over .badOpcode, evs, haz, hone, g3, rfl⟩
      | interrupted =>
        rcases g4 with rfl | ⟨hc, ⟨e, rfl⟩ | rfl⟩
        · exact ⟨k + k', ds, .over .interrupted, evs, haz, hone, g3, .inl rfl⟩
        · exact ⟨k + k', ds, .over .interrupted, evs, haz, hone, g3, .inr ⟨hc, .inl ⟨_, rfl⟩⟩⟩
        · exact ⟨k + k', ds, .over .interrupted, evs, haz, hone, g3, .inr ⟨hc, .inr rfl⟩⟩
  · have hone := OneFrame.noHeader (isOpen := o) hp
    rcases hx with rfl | ⟨e, he, rfl, hf⟩
    · exact ⟨k, [], .over .incomplete, [], ha, hone, .nil, .inl rfl⟩
    · exact ⟨k, [], .over .incomplete, [], ha, hone, .nil, .inr ⟨e, he, rfl, fun h => ha.empty (hf h)⟩⟩

end OatWS.Threads
