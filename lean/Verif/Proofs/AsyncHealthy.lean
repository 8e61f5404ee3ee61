import Verif.Proofs.AsyncDefined
import Verif.Proofs.AsyncInstalled
import Verif.Proofs.Dialogue
import Verif.Spec.Refusal
import Verif.Spec.Working
import Verif.Spec.Schedule
/-! Tasks of an async socket on a connection that does not fail. -/

namespace OatWS.Async

/-- What holds of every coroutine object, if nothing has failed. -/
def Co.Sane (B : Int) : Co → Prop
  | .readFrame c => match c.pc with
    | .act => c.need = 2 ∧ c.got.length ≤ 2
    | .onBbRead => c.got.length = 2
    | .readMask => c.need = 4 ∧ c.got.length ≤ 4
    | _ => True
  | .readPayload c => c.cap = B.toNat ∧ match c.pc with
    | .readData => 0 < c.want ∧ c.want ≤ B
    | .onDataRead => c.got ≠ []
    | _ => True
  | .user c => ∀ op ∈ c.ops, op.Proper B
  | .sendFrame c => (c.message.getD []).length < 2 ^ 31
  | _ => True

/-- An error of the protocol. -/
def Refused (e : AErr) : Prop := ∃ err, e = .thrown err ∧ err.isProtocol

/-- What a coroutine function may return. -/
def Act.Sane (B : Int) (c : Co) : Act → Prop
  | .goto c' => c'.Sane B
  | .call cs c' => (∀ x ∈ cs, x.Sane B) ∧ c'.Sane B
  | .error e => Refused e ∧ ∃ h, c = .handleFrame h
  | .ub _ => False
  | _ => True

/-- Reading: what has been used of the schedule has given at least as many bytes as it had outcomes that give some. -/
def SpentIn (i i' : InStream) : Prop := ∃ used, i.sched = used ++ i'.sched ∧ used.countP IoOutcome.moves + i'.bytes.length ≤ i.bytes.length

/-- Writing: what has been used of the schedule has taken at least as many bytes as it had outcomes that take some. -/
def SpentOut (o o' : OutStream) : Prop := ∃ used, o.sched = used ++ o'.sched ∧ used.countP IoOutcome.moves + o.written.length ≤ o'.written.length

theorem SpentIn.refl (i : InStream) : SpentIn i i := ⟨[], rfl, Nat.le_of_eq (Nat.zero_add _)⟩
theorem SpentOut.refl (o : OutStream) : SpentOut o o := ⟨[], rfl, Nat.le_of_eq (Nat.zero_add _)⟩

theorem SpentIn.trans {a b c : InStream} (h : SpentIn a b) (h' : SpentIn b c) : SpentIn a c := by
  obtain ⟨u, h1, h2⟩ := h
  obtain ⟨v, h3, h4⟩ := h'
  refine ⟨u ++ v, by rw [h1, h3, List.append_assoc], ?_⟩
  rw [List.countP_append]
  omega

theorem SpentOut.trans {a b c : OutStream} (h : SpentOut a b) (h' : SpentOut b c) : SpentOut a c := by
  obtain ⟨u, h1, h2⟩ := h
  obtain ⟨v, h3, h4⟩ := h'
  refine ⟨u ++ v, by rw [h1, h3, List.append_assoc], ?_⟩
  rw [List.countP_append]
  omega

/-- The connection does not fail from now on. -/
def World.Fine (w : World) : Prop := (∀ o ∈ w.st.inp.sched, o.fine = true) ∧ ∀ o ∈ w.st.sock.out.sched, o.fine = true

/-- Result of a coroutine function. -/
def Works (env : Env) (B : Int) (c : Co) (w : World) (x : Act × Local × World) : Prop :=
  x.2.2.size = B ∧ w.st.sock.trace <+: x.2.2.st.sock.trace ∧ SpentIn w.st.inp x.2.2.st.inp ∧ SpentOut w.st.sock.out x.2.2.st.sock.out ∧ ((x.2.2.st.sock.trace ≠ [] → ∀ op ∈ env.react x.2.2.st.sock.trace, op.Proper B) → x.1.Sane B c)

variable {B : Int} {env : Env}

/-- A function that does not use the connection. -/
theorem Works.inner {c : Co} {w w' : World} {a : Act} {l : Local} (h1 : w'.size = B) (h2 : w'.st.inp = w.st.inp) (h3 : w'.st.sock.out = w.st.sock.out) (h5 : w'.st.sock.trace = w.st.sock.trace) (h4 : a.Sane B c) : Works env B c w (a, l, w') :=
  ⟨h1, by show _ <+: w'.st.sock.trace; rw [h5]; exact List.prefix_refl _, by show SpentIn _ w'.st.inp; rw [h2]; exact .refl _, by show SpentOut _ w'.st.sock.out; rw [h3]; exact .refl _, fun _ => h4⟩

theorem lowRead_spent {m count : Nat} {bytes : List UInt8} (hb : bytes ≠ []) (hc : 0 < count) :
    ∃ k, 0 < k ∧ k ≤ count ∧ k ≤ bytes.length ∧ lowRead (.upTo m) bytes count = (.data (bytes.take k), bytes.drop k) := by
  have hl : 0 < bytes.length := List.length_pos_iff.mpr hb
  refine ⟨min (m + 1) (min count bytes.length), by omega, by omega, by omega, ?_⟩
  unfold lowRead
  dsimp only
  rw [if_neg (by omega)]

theorem readInline_works {need : Nat} {got : List UInt8} {i : InStream} (hf : ∀ o ∈ i.sched, o.fine = true) (hr : got.length < need → ∀ m s, i.sched = .upTo m :: s → i.bytes ≠ []) :
    (∃ g i', readInline need got i = (.again g, i') ∧ SpentIn i i' ∧ g.length < need) ∨
    (∃ g i', readInline need got i = (.done g, i') ∧ SpentIn i i' ∧ (got.length ≤ need → g.length = need)) ∨ readInline need got i = (.blocked, i) := by
  unfold readInline
  split
  · rename_i h
    exact .inr (.inl ⟨got, i, rfl, .refl _, fun h' => Nat.le_antisymm h' h⟩)
  · rename_i h
    have h : got.length < need := by omega
    cases hs : i.sched with
    | nil => exact .inr (.inr rfl)
    | cons o s =>
      have ho := hf o (by rw [hs]; exact List.mem_cons_self ..)
      cases o with
      | upTo m =>
        obtain ⟨k, k1, k2, k3, e⟩ := lowRead_spent (m := m) (count := need - got.length) (hr h m s hs) (by omega)
        dsimp only
        rw [e]
        dsimp only
        have hsp : SpentIn i ⟨i.bytes.drop k, s⟩ := ⟨[.upTo m], hs, by show 1 + (i.bytes.drop k).length ≤ _; rw [List.length_drop]; omega⟩
        have hl : (got ++ i.bytes.take k).length ≤ need := by rw [List.length_append, List.length_take]; omega
        split
        · rename_i h'
          exact .inr (.inl ⟨_, _, rfl, hsp, fun _ => Nat.le_antisymm hl h'⟩)
        · exact .inl ⟨_, _, rfl, hsp, by omega⟩
      | retry => exact .inl ⟨got, ⟨i.bytes, s⟩, rfl, ⟨[.retry], hs, Nat.le_of_eq (Nat.zero_add _)⟩, h⟩
      | zero => cases ho
      | broken => cases ho

theorem writeInline_works {left : List UInt8} {o : OutStream} (hf : ∀ x ∈ o.sched, x.fine = true) :
    (∃ g o', writeInline left o = (.again g, o') ∧ SpentOut o o') ∨ (∃ g o', writeInline left o = (.done g, o') ∧ SpentOut o o') ∨ writeInline left o = (.blocked, o) := by
  cases left with
  | nil => exact .inr (.inl ⟨[], o, rfl, .refl _⟩)
  | cons b bs =>
    cases hs : o.sched with
    | nil => unfold writeInline; rw [hs]; exact .inr (.inr rfl)
    | cons x s =>
      have hx := hf x (by rw [hs]; exact List.mem_cons_self ..)
      unfold writeInline
      rw [hs]
      dsimp only
      cases x with
      | upTo m =>
        dsimp only
        have hsp : SpentOut o ⟨o.written ++ (b :: bs).take (min (m + 1) (b :: bs).length), s⟩ := by
          refine ⟨[.upTo m], hs, ?_⟩
          show 1 + o.written.length ≤ (o.written ++ _).length
          rw [List.length_append, List.length_take, List.length_cons]
          omega
        split
        · exact .inr (.inl ⟨_, _, rfl, hsp⟩)
        · exact .inl ⟨_, _, rfl, hsp⟩
      | retry => exact .inl ⟨_, _, rfl, ⟨[.retry], hs, Nat.le_of_eq (Nat.zero_add _)⟩⟩
      | zero => cases hx
      | broken => cases hx

theorem works_writeStep {c : Co} {left l again cont} {w : World} (hw : w.size = B) (hf : w.Fine) (ha : ∀ g, Co.Sane B (again g)) (hc : Act.Sane B c cont) : Works env B c w (writeStep left l w again cont) := by
  unfold writeStep
  rcases writeInline_works (left := left) hf.2 with ⟨g, o', e, h⟩ | ⟨g, o', e, h⟩ | e
  · rw [e]; exact ⟨hw, List.prefix_refl _, .refl _, h, fun _ => ha g⟩
  · rw [e]; exact ⟨hw, List.prefix_refl _, .refl _, h, fun _ => hc⟩
  · rw [e]; exact ⟨hw, List.prefix_refl _, .refl _, .refl _, fun _ => trivial⟩

theorem works_readStep {c : Co} {need got l again} {cont : List UInt8 → World → Act × Local × World} {w : World} (hw : w.size = B) (hf : w.Fine)
    (hr : got.length < need → ∀ m s, w.st.inp.sched = .upTo m :: s → w.st.inp.bytes ≠ []) (ha : ∀ g, g.length < need → Co.Sane B (again g))
    (hc : ∀ g w', (got.length ≤ need → g.length = need) → ∃ a l', cont g w' = (a, l', w') ∧ a.Sane B c) : Works env B c w (readStep need got l w again cont) := by
  unfold readStep
  rcases readInline_works hf.1 hr with ⟨g, i', e, h, hg⟩ | ⟨g, i', e, h, hg⟩ | e
  · rw [e]; exact ⟨hw, List.prefix_refl _, h, .refl _, fun _ => ha g hg⟩
  · rw [e]
    obtain ⟨a, l', e', h'⟩ := hc g (w.setInp i') hg
    dsimp only
    rw [e']
    exact ⟨hw, List.prefix_refl _, h, .refl _, fun _ => h'⟩
  · rw [e]; exact ⟨hw, List.prefix_refl _, .refl _, .refl _, fun _ => trivial⟩

theorem works_writeFrame {c : WriteFrameCo} {l : Local} {w : World} (hw : w.size = B) (hf : w.Fine) : Works env B (.writeFrame c) w (writeFrameStep env c l w) := by
  unfold writeFrameStep
  split
  · exact works_writeStep hw hf (fun _ => trivial) trivial
  · split
    · exact .inner hw rfl rfl rfl trivial
    · split <;> exact .inner hw rfl rfl rfl trivial
  · exact works_writeStep hw hf (fun _ => trivial) trivial
  · split <;> exact .inner hw rfl rfl rfl trivial
  · exact works_writeStep hw hf (fun _ => trivial) trivial

theorem sane_header (env : Env) (h : Header) (fin : Bool) (op : UInt8) (n : Int) (w : World) : (sendFrameHeaderAsync env h fin op n w).2.1.Sane B ∧
    (sendFrameHeaderAsync env h fin op n w).2.2.size = w.size ∧ (sendFrameHeaderAsync env h fin op n w).2.2.st.inp = w.st.inp ∧ (sendFrameHeaderAsync env h fin op n w).2.2.st.sock.out = w.st.sock.out ∧
    (sendFrameHeaderAsync env h fin op n w).2.2.st.sock.trace = w.st.sock.trace := by
  unfold sendFrameHeaderAsync
  dsimp only
  split <;> exact ⟨trivial, rfl, rfl, rfl, rfl⟩

theorem works_sendFrame {c : SendFrameCo} {l : Local} {w : World} (hc : (c.message.getD []).length < 2 ^ 31) (hw : w.size = B) (hf : w.Fine) : Works env B (.sendFrame c) w (sendFrameStep env c l w) := by
  unfold sendFrameStep
  split
  · split
    · rename_i b bs hm
      have := sane_header (B := B) env c.hdr c.fin c.opcode (b :: bs).length w
      generalize sendFrameHeaderAsync env c.hdr c.fin c.opcode (b :: bs).length w = x at this
      obtain ⟨h, co, w'⟩ := x
      refine .inner (this.2.1.trans hw) this.2.2.1 this.2.2.2.1 this.2.2.2.2 ⟨fun x hx => ?_, hc⟩
      rw [List.mem_singleton] at hx
      exact hx ▸ this.1
    · have := sane_header (B := B) env c.hdr c.fin c.opcode 0 w
      generalize sendFrameHeaderAsync env c.hdr c.fin c.opcode 0 w = x at this
      obtain ⟨h, co, w'⟩ := x
      refine .inner (this.2.1.trans hw) this.2.2.1 this.2.2.2.1 this.2.2.2.2 ⟨fun x hx => ?_, hc⟩
      rw [List.mem_singleton] at hx
      exact hx ▸ this.1
  · dsimp only
    split
    · rw [if_neg (Nat.not_le.mpr hc)]
      exact .inner hw rfl rfl rfl hc
    · exact .inner hw rfl rfl rfl hc
  · exact works_writeStep hw hf (fun _ => hc) trivial
  · exact .inner hw rfl rfl rfl trivial

theorem sane_sendAsync (env : Env) (c : SendCall) (hs : c.content.2.2.length < 2 ^ 31) : (sendAsync env c).Sane B := by
  cases c with
  | close code message =>
    show (store16 env.host (hton16 env.host code) ++ message.getD []).length < 2 ^ 31
    rw [close_payload]
    exact hs
  | _ => exact hs

theorem works_user {c : UserCo} {l : Local} {w : World} (hc : ∀ op ∈ c.ops, op.Proper B) (hw : w.size = B) : Works env B (.user c) w (userStep env c l w) := by
  unfold userStep
  cases e : c.ops with
  | nil => exact .inner hw rfl rfl rfl trivial
  | cons op ops =>
    have h1 := hc op (by rw [e]; exact List.mem_cons_self ..)
    have h2 : ∀ o ∈ ops, o.Proper B := fun o ho => hc o (by rw [e]; exact List.mem_cons_of_mem _ ho)
    cases op with
    | send d catches =>
      refine .inner hw rfl rfl rfl ⟨fun x hx => ?_, h2⟩
      rw [List.mem_singleton] at hx
      exact hx ▸ sane_sendAsync env _ h1.1
    | throw => exact absurd rfl h1.2
    | setConfig cfg => exact .inner h1.1 rfl rfl rfl h2
    | setListener l' => exact .inner hw rfl rfl rfl h2
    | stopListening => exact .inner hw rfl rfl rfl h2

/-- A callback. -/
theorem works_callback {c c' : Co} {ev : Event} {ptr : Option Nat} {data : List UInt8} {w w0 w1 : World} {l : Local} (hw : w.size = B) (h2 : w.st.inp = w0.st.inp) (h3 : w.st.sock.out = w0.st.sock.out) (h4 : w.st.sock.trace = w0.st.sock.trace)
    (he : w1.st = (callback env ev ptr data w).2.st) (hf : c'.Sane B) : Works env B c w0 (.call [(callback env ev ptr data w).1] c', l, w1) := by
  refine ⟨?_, ?_, ?_, ?_, fun hr => ⟨fun x hx => ?_, hf⟩⟩
  · show w1.st.sock.config.readBufferSize = B
    rw [he]; exact hw
  · show w0.st.sock.trace <+: w1.st.sock.trace
    rw [he, ← h4]; exact List.prefix_append ..
  · show SpentIn w0.st.inp w1.st.inp
    rw [he]; show SpentIn w0.st.inp w.st.inp; rw [h2]; exact .refl _
  · show SpentOut w0.st.sock.out w1.st.sock.out
    rw [he]; show SpentOut w0.st.sock.out w.st.sock.out; rw [h3]; exact .refl _
  · rw [List.mem_singleton] at hx
    subst hx
    have hr : w1.st.sock.trace ≠ [] → ∀ op ∈ env.react w1.st.sock.trace, op.Proper B := hr
    rw [he] at hr
    exact hr fun h => List.cons_ne_nil _ _ (List.append_eq_nil_iff.mp h).2

theorem works_readPayload {c : ReadPayloadCo} {rest : List Co} {l : Local} {w : World} (hB : 0 < B) (hc : (Co.readPayload c).Sane B) (hw : w.size = B) (hf : w.Fine)
    (hr : Task.ready ⟨.readPayload c :: rest, l⟩ w = true) : Works env B (.readPayload c) w (readPayloadStep env c l w) := by
  obtain ⟨h1, h2⟩ := hc
  have ha : ∀ p g, (Co.readPayload { c with pc := .act, progress := p, got := g }).Sane B := fun p g => ⟨h1, trivial⟩
  unfold readPayloadStep
  split
  · split
    · rename_i hlt
      dsimp only
      have hw : w.st.sock.config.readBufferSize = B := hw
      refine .inner hw rfl rfl rfl ⟨h1, ?_⟩
      dsimp only
      rw [hw]
      split <;> constructor <;> omega
    · split
      · split
        · exact works_callback hw rfl rfl rfl rfl ⟨h1, trivial⟩
        · exact .inner hw rfl rfl rfl trivial
      · exact .inner hw rfl rfl rfl trivial
  · rename_i hpc
    rw [hpc] at h2
    dsimp only at h2
    rw [if_neg (by omega)]
    cases hs : w.st.inp.sched with
    | nil => exact .inner hw rfl rfl rfl trivial
    | cons o s =>
      dsimp only
      have ho := hf.1 o (by rw [hs]; exact List.mem_cons_self ..)
      cases o with
      | upTo m =>
        have hb : w.st.inp.bytes ≠ [] := by
          unfold Task.ready Task.reads at hr
          simpa [hpc, hs, h2.1] using hr
        obtain ⟨k, k1, k2, k3, e⟩ := lowRead_spent (m := m) (count := c.want.toNat) hb (by omega)
        rw [e]
        dsimp only
        have hl : (w.st.inp.bytes.take k).length = k := by rw [List.length_take]; omega
        rw [if_neg (by rw [hl, h1]; omega)]
        refine ⟨hw, List.prefix_refl _, ⟨[.upTo m], hs, ?_⟩, .refl _, fun _ => ⟨h1, ?_⟩⟩
        · show 1 + (w.st.inp.bytes.drop k).length ≤ _
          rw [List.length_drop]; omega
        · show w.st.inp.bytes.take k ≠ []
          intro h
          rw [h] at hl
          exact absurd hl (by simp; omega)
      | retry =>
        refine ⟨hw, List.prefix_refl _, ⟨[.retry], hs, Nat.le_of_eq (Nat.zero_add _)⟩, .refl _, fun _ => ⟨h1, ?_⟩⟩
        rw [hpc]
        exact h2
      | zero => cases ho
      | broken => cases ho
  · rename_i hpc
    rw [hpc] at h2
    dsimp only at h2
    rw [if_pos h2]
    dsimp only
    split
    · split
      · exact .inner hw rfl rfl rfl ⟨h1, trivial⟩
      · split
        · exact works_callback (by exact hw) rfl rfl rfl (by rfl) ⟨h1, trivial⟩
        · exact .inner hw rfl rfl rfl ⟨h1, trivial⟩
    · split
      · exact .inner hw rfl rfl rfl ⟨h1, trivial⟩
      · split
        · exact works_callback hw rfl rfl rfl rfl ⟨h1, trivial⟩
        · exact .inner hw rfl rfl rfl ⟨h1, trivial⟩
  · exact .inner hw rfl rfl rfl trivial

theorem works_readFrame {c : ReadFrameCo} {rest : List Co} {l : Local} {w : World} (hc : (Co.readFrame c).Sane B) (hw : w.size = B) (hf : w.Fine)
    (hr : Task.ready ⟨.readFrame c :: rest, l⟩ w = true) : Works env B (.readFrame c) w (readFrameStep env c l w) := by
  have hrd : (c.pc = .act ∨ c.pc = .readLen ∨ c.pc = .readMask) → c.got.length < c.need → ∀ m s, w.st.inp.sched = .upTo m :: s → w.st.inp.bytes ≠ [] := by
    intro hp hlt m s hs
    unfold Task.ready Task.reads at hr
    rcases hp with hp | hp | hp <;> simpa [hp, hs, hlt] using hr
  unfold readFrameStep
  split
  · rename_i hpc
    dsimp only [Co.Sane] at hc
    rw [hpc] at hc
    dsimp only at hc
    refine works_readStep hw hf (hrd (.inl hpc)) (fun g hg => ?_) fun g w' hg => ⟨_, _, rfl, ?_⟩
    · dsimp only [Co.Sane]
      rw [hpc]
      exact ⟨hc.1, by show g.length ≤ 2; omega⟩
    · show g.length = 2
      rw [hg (by omega), hc.1]
  · rename_i hpc
    dsimp only [Co.Sane] at hc
    rw [hpc] at hc
    dsimp only at hc
    split
    · split
      split
      · exact .inner hw rfl rfl rfl trivial
      · split <;> exact .inner hw rfl rfl rfl trivial
    · rename_i hno
      exfalso
      rcases hg : c.got with _ | ⟨x, _ | ⟨y, _ | ⟨z, r⟩⟩⟩
      all_goals rw [hg] at hc
      · cases hc
      · cases hc
      · exact hno x y hg
      · simp at hc
  · rename_i hpc
    refine works_readStep hw hf (hrd (.inr (.inl hpc))) (fun g hg => ?_) fun g w' hg => ⟨_, _, rfl, trivial⟩
    dsimp only [Co.Sane]
    rw [hpc]
    trivial
  · dsimp only
    split
    · exact .inner hw rfl rfl rfl ⟨rfl, Nat.zero_le _⟩
    · exact .inner hw rfl rfl rfl trivial
  · rename_i hpc
    dsimp only [Co.Sane] at hc
    rw [hpc] at hc
    dsimp only at hc
    refine works_readStep hw hf (hrd (.inr (.inr hpc))) (fun g hg => ?_) fun g w' hg => ?_
    · dsimp only [Co.Sane]
      rw [hpc]
      exact ⟨hc.1, by show g.length ≤ 4; omega⟩
    · have hl : g.length = 4 := by rw [hg (by omega), hc.1]
      rcases g with _ | ⟨a, _ | ⟨b, _ | ⟨c, _ | ⟨d, _ | ⟨e, r⟩⟩⟩⟩⟩
      · cases hl
      · cases hl
      · cases hl
      · cases hl
      · exact ⟨_, _, rfl, trivial⟩
      · simp at hl

theorem works_startPayload {c : HandleFrameCo} {short : Bool} {pc : HandleFramePc} {l : Local} {w w0 : World} (hB : 0 < B) (hw : w.size = B) (h2 : w.st.inp = w0.st.inp) (h3 : w.st.sock.out = w0.st.sock.out) (h4 : w.st.sock.trace = w0.st.sock.trace) :
    Works env B (.handleFrame c) w0 (startPayload c short pc l w) := by
  have hw : w.st.sock.config.readBufferSize = B := hw
  unfold startPayload readPayloadAsync
  rw [hw]
  split
  · rename_i co w1 h
    split at h
    · cases h
    · rw [if_neg (by omega)] at h
      injection h with h; injection h with h h'; subst h h'
      refine .inner hw h2 h3 h4 ⟨fun x hx => ?_, trivial⟩
      rw [List.mem_singleton] at hx
      subst hx
      refine ⟨?_, trivial⟩
      show w.st.sock.config.readBufferSize.toNat = B.toNat
      rw [hw]
  · rename_i e h
    split at h
    · injection h with h
      subst h
      exact .inner hw h2 h3 h4 ⟨⟨_, rfl, trivial⟩, c, rfl⟩
    · rw [if_neg (by omega)] at h
      cases h

theorem works_startData {c : HandleFrameCo} {l : Local} {w : World} (hB : 0 < B) (hw : w.size = B) : Works env B (.handleFrame c) w (startData c l w) := by
  unfold startData checkForContinuationA
  split
  · rename_i s h
    split at h
    · cases h
    · split at h <;> (injection h with _ h; subst h; exact works_startPayload hB hw rfl rfl rfl)
  · rename_i s h
    split at h
    · injection h with _ h
      subst h
      exact .inner hw rfl rfl rfl ⟨⟨_, rfl, trivial⟩, c, rfl⟩
    · split at h <;> cases h

theorem works_control {c : HandleFrameCo} {mk : Nat → Event} {l : Local} {w : World} (hw : w.size = B) : Works env B (.handleFrame c) w (controlCallback env c mk l w) := by
  unfold controlCallback
  split
  · exact works_callback hw rfl rfl rfl rfl trivial
  · exact .inner hw rfl rfl rfl trivial

theorem works_handleFrame {c : HandleFrameCo} {l : Local} {w : World} (hB : 0 < B) (hw : w.size = B) : Works env B (.handleFrame c) w (handleFrameStep env c l w) := by
  unfold handleFrameStep
  split
  · split
    · split
      · exact .inner hw rfl rfl rfl ⟨⟨_, rfl, trivial⟩, c, rfl⟩
      · exact works_startPayload hB hw rfl rfl rfl
    · split
      · exact works_startData hB hw
      · split
        · exact works_startData hB hw
        · split
          · exact works_startPayload hB hw rfl rfl rfl
          · split
            · exact works_startPayload hB hw rfl rfl rfl
            · split
              · exact works_startPayload hB hw rfl rfl rfl
              · exact .inner hw rfl rfl rfl ⟨⟨_, rfl, trivial⟩, c, rfl⟩
  · exact works_control hw
  · exact works_control hw
  · exact works_control hw
  · exact .inner hw rfl rfl rfl trivial

theorem works_coStep {c : Co} {rest : List Co} {l : Local} {w : World} (hB : 0 < B) (hc : c.Sane B) (hw : w.size = B) (hf : w.Fine) (hr : Task.ready ⟨c :: rest, l⟩ w = true) : Works env B c w (coStep env c l w) := by
  cases c with
  | listen =>
    show Works env B _ w (listenStep l w)
    unfold listenStep
    split
    · refine .inner hw rfl rfl rfl ⟨fun x hx => ?_, trivial⟩
      simp only [List.mem_cons, List.not_mem_nil, or_false] at hx
      rcases hx with rfl | rfl
      · exact ⟨rfl, Nat.zero_le _⟩
      · trivial
    · exact .inner hw rfl rfl rfl trivial
  | readFrame c => exact works_readFrame hc hw hf hr
  | handleFrame c => exact works_handleFrame hB hw
  | readPayload c => exact works_readPayload hB hc hw hf hr
  | user c => exact works_user hc hw
  | sendFrame c => exact works_sendFrame hc hw hf
  | writeFrame c => exact works_writeFrame hw hf

/-- All coroutine objects of the task. -/
def Outcome.Sane (B : Int) : Outcome → Prop
  | .run t => ∀ c ∈ t.stack, c.Sane B
  | .failed e => Refused e
  | .ub _ => False
  | _ => True

theorem sane_unwind {e : AErr} (he : Refused e) (cs : List Co) (hcs : ∀ c ∈ cs, c.Sane B) (l : Local) (w : World) : (unwind e cs l w).1.Sane B ∧ (unwind e cs l w).2.st = w.st := by
  induction cs generalizing w with
  | nil => exact ⟨he, rfl⟩
  | cons c cs ih =>
    have ih := fun w => ih (fun x hx => hcs x (List.mem_cons_of_mem _ hx)) w
    have hc := hcs c (List.mem_cons_self ..)
    cases c with
    | user c =>
      unfold unwind
      split
      · refine ⟨fun x hx => ?_, rfl⟩
        rcases List.mem_cons.mp hx with rfl | hx
        · exact hc
        · exact hcs x (List.mem_cons_of_mem _ hx)
      · exact ih w
    | _ => exact ⟨(ih _).1, (ih _).2.trans (destroy_st _ _)⟩

/-- A step of a task. -/
theorem works_step {t : Task} {w w' : World} {o : Outcome} (hB : 0 < B) (ht : (Outcome.run t).Sane B) (hw : w.size = B) (hf : w.Fine) (hr : t.ready w = true) (h : step env t w = (o, w')) :
    w'.size = B ∧ w.st.sock.trace <+: w'.st.sock.trace ∧ SpentIn w.st.inp w'.st.inp ∧ SpentOut w.st.sock.out w'.st.sock.out ∧ ((w'.st.sock.trace ≠ [] → ∀ op ∈ env.react w'.st.sock.trace, op.Proper B) → o.Sane B ∧ t.fails env w = false) := by
  obtain ⟨stack, loc⟩ := t
  cases stack with
  | nil =>
    injection h with h1 h2
    subst h1 h2
    exact ⟨hw, List.prefix_refl _, .refl _, .refl _, fun _ => ⟨trivial, rfl⟩⟩
  | cons c rest =>
    have htl : ∀ x ∈ rest, x.Sane B := fun x hx => ht x (List.mem_cons_of_mem _ hx)
    have hwk := works_coStep (env := env) hB (ht c (List.mem_cons_self ..)) hw hf hr
    have hfl : ∀ {l w1 a}, coStep env c loc w = (a, l, w1) → (a.Sane B c) → Task.fails env ⟨c :: rest, loc⟩ w = false := by
      intro l w1 a e ha
      unfold Task.fails
      dsimp only
      split
      · rename_i d _ hd
        injection hd with hd
        subst hd
        rw [e]
        cases a with
        | error e => obtain ⟨_, x, hx⟩ := ha; cases hx
        | _ => rfl
      · rename_i d _ hd
        injection hd with hd
        subst hd
        rw [e]
        cases a with
        | error e => obtain ⟨_, x, hx⟩ := ha; cases hx
        | _ => rfl
      · rfl
    unfold step at h
    dsimp only at h
    rcases e : coStep env c loc w with ⟨a, l, w1⟩
    rw [e] at h hwk
    obtain ⟨h1, h0, h2, h3, h4⟩ := hwk
    have hst : ∀ {w2 : World}, w2.st = w1.st → w2.size = B ∧ w.st.sock.trace <+: w2.st.sock.trace ∧ SpentIn w.st.inp w2.st.inp ∧ SpentOut w.st.sock.out w2.st.sock.out := by
      intro w2 hx
      unfold World.size
      rw [hx]
      exact ⟨h1, h0, h2, h3⟩
    cases a with
    | goto c' =>
      injection h with g1 g2
      subst g1 g2
      refine ⟨h1, h0, h2, h3, fun hx => ⟨fun x hm => ?_, hfl e (h4 hx)⟩⟩
      rcases List.mem_cons.mp hm with rfl | hm
      · exact h4 hx
      · exact htl x hm
    | call cs c' =>
      injection h with g1 g2
      subst g1 g2
      refine ⟨h1, h0, h2, h3, fun hx => ⟨fun x hm => ?_, hfl e (h4 hx)⟩⟩
      rcases List.mem_append.mp hm with hm | hm
      · exact (h4 hx).1 x hm
      · rcases List.mem_cons.mp hm with rfl | hm
        · exact (h4 hx).2
        · exact htl x hm
    | finish =>
      cases rest with
      | nil =>
        injection h with g1 g2
        subst g1 g2
        obtain ⟨k1, k0, k2, k3⟩ := hst (destroy_st c w1)
        exact ⟨k1, k0, k2, k3, fun _ => ⟨trivial, hfl e trivial⟩⟩
      | cons d rest =>
        injection h with g1 g2
        subst g1 g2
        obtain ⟨k1, k0, k2, k3⟩ := hst (destroy_st c w1)
        exact ⟨k1, k0, k2, k3, fun _ => ⟨htl, hfl e trivial⟩⟩
    | error er =>
      have hs : w'.st = w1.st := by
        have := congrArg (fun x => x.2.st) h
        dsimp only at this
        rw [← this, unwind_st, destroy_st]
      obtain ⟨k1, k0, k2, k3⟩ := hst hs
      refine ⟨k1, k0, k2, k3, fun hx => ?_⟩
      rw [hs] at hx
      have hx := h4 hx
      have := sane_unwind hx.1 rest htl l (destroy c w1)
      dsimp only at h
      rw [h] at this
      exact ⟨this.1, hfl e hx⟩
    | blocked =>
      injection h with g1 g2
      subst g1 g2
      exact ⟨h1, h0, h2, h3, fun _ => ⟨trivial, hfl e trivial⟩⟩
    | ub u =>
      injection h with g1 g2
      subst g1 g2
      exact ⟨h1, h0, h2, h3, fun hx => (h4 hx).elim⟩

theorem step_grows {t : Task} {w w' : World} {o : Outcome} (h : step env t w = (o, w')) : w.st.sock.trace <+: w'.st.sock.trace := by
  have hall : ∀ c : Co, c.From fun _ => True := by
    intro c
    cases c with
    | user c => intro op _; cases op <;> trivial
    | _ => trivial
  have := (from_step (I := fun _ => True) (env := env) (fun _ op _ => by cases op <;> trivial) (t := t) (fun c _ => hall c) trivial h).2.2
  rcases this with h | ⟨e, h, -⟩
  · rw [h]; exact List.prefix_refl _
  · rw [h]; exact List.prefix_append ..

/-- Any number of steps. -/
theorem Fed.healthy {p q : Pool} {log fed} (h : Fed env p log fed q) (hB : 0 < B) (hp : ∀ o ∈ p.tasks, o.Sane B) (hw : p.world.size = B) (hf : p.world.Fine)
    (hs : ∀ tr, tr <+: q.world.st.sock.trace → tr ≠ [] → ∀ op ∈ env.react tr, op.Proper B) :
    (∀ o ∈ q.tasks, o.Sane B) ∧ q.world.size = B ∧ q.world.Fine ∧ (∀ e ∈ log, e.failed = false) ∧ SpentOut p.world.st.sock.out q.world.st.sock.out ∧
      ∃ used, p.world.st.inp.sched = used ++ q.world.st.inp.sched ∧ used.countP IoOutcome.moves + q.world.st.inp.bytes.length ≤ p.world.st.inp.bytes.length + fed.length := by
  induction h with
  | refl => exact ⟨hp, hw, hf, fun _ h => (by cases h), .refl _, [], rfl, Nat.le_of_eq (Nat.zero_add _)⟩
  | @own log fed q i t o w' bs h1 h2 h3 h4 h5 h6 ih =>
    have hs' : ∀ tr, tr <+: w'.st.sock.trace → tr ≠ [] → ∀ op ∈ env.react tr, op.Proper B := hs
    have hpre := step_grows h4
    obtain ⟨k1, k2, k3, k4, k5, used, k6, k7⟩ := ih fun tr htr => hs' tr (htr.trans hpre)
    obtain ⟨g1, -, ⟨u, g2, g2'⟩, g3, g4⟩ := works_step hB (k1 _ (List.mem_of_getElem? h2)) k2 k3 h3 h4
    obtain ⟨g4, g5⟩ := g4 (hs' _ (List.prefix_refl _))
    have hfi : w'.Fine := by
      obtain ⟨v, g6, -⟩ := g3
      refine ⟨fun x hx => k3.1 x ?_, fun x hx => k3.2 x ?_⟩
      · rw [g2]; exact List.mem_append_right _ hx
      · rw [g6]; exact List.mem_append_right _ hx
    refine ⟨?_, g1, hfi, ?_, k5.trans g3, used ++ u, ?_, ?_⟩
    · intro x hx
      rcases List.mem_or_eq_of_mem_set hx with hx | rfl
      · exact k1 x hx
      · exact g4
    · intro e he
      rcases List.mem_append.mp he with he | he
      · exact k4 e he
      · rw [List.mem_singleton.mp he]; exact g5
    · rw [k6, g2, List.append_assoc]
    · rw [List.countP_append]
      show _ + w'.st.inp.bytes.length ≤ _
      omega
  | @feed log fed q bs h1 ih =>
    obtain ⟨k1, k2, k3, k4, k5, used, k6, k7⟩ := ih hs
    refine ⟨k1, k2, k3, k4, k5, used, k6, ?_⟩
    show used.countP IoOutcome.moves + (q.world.st.inp.bytes ++ bs).length ≤ _
    rw [List.length_append, List.length_append]
    omega
