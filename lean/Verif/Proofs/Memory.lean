import Verif.Spec.Memory
import Verif.Proofs.Exec
import Verif.Proofs.Mask
/-! Bounds on what the coroutines of a task need. -/

namespace OatWS.Async

/-- Coroutines call only coroutines of lower levels. -/
def Co.level : Co → Nat
  | .listen => 6
  | .handleFrame _ => 5
  | .readFrame _ => 4
  | .readPayload _ => 4
  | .user _ => 3
  | .sendFrame _ => 2
  | .writeFrame _ => 1

theorem level_pos (c : Co) : 1 ≤ c.level ∧ c.level ≤ 6 := by cases c <;> exact ⟨Nat.le_of_ble_eq_true rfl, Nat.le_of_ble_eq_true rfl⟩

/-- Levels increase from the top down. -/
abbrev Layered (cs : List Co) : Prop := cs.Pairwise fun a b => a.level < b.level

theorem layered_length (cs : List Co) (k : Nat) (h : Layered cs) (hk : ∀ c ∈ cs, k ≤ c.level) : cs.length ≤ 7 - k := by
  induction cs generalizing k with
  | nil => exact Nat.zero_le _
  | cons c cs ih =>
    obtain ⟨h1, h2⟩ := List.pairwise_cons.mp h
    have := ih (c.level + 1) h2 fun d hd => h1 d hd
    have := hk c (.head _)
    have := (level_pos c).2
    rw [List.length_cons]
    omega

/-- Little is needed: `B` bounds the sizes of buffers, the content of a control frame is bounded by what its header announced. -/
def Modest (B : Nat) (l : Local) : Co → Prop
  | .readPayload c => c.cap ≤ B ∧ c.got.length ≤ c.cap ∧ (c.short = true → l.hdr.payloadLength ≤ 125 ∧ (l.short.length : Int) = c.progress ∧
      (c.pc = .readData → c.want ≤ l.hdr.payloadLength - c.progress ∧ c.got = [] ∧ c.progress < l.hdr.payloadLength) ∧
      (c.pc = .onDataRead → (c.got.length : Int) ≤ l.hdr.payloadLength - c.progress))
  | .user u => ∀ op ∈ u.ops, op.sized B
  | _ => True

/-- Contents of the shared buffers, and the size of buffers to come. -/
structure Compact (B : Nat) (w : World) : Prop where
  config : w.st.sock.config.readBufferSize ≤ B
  heap : ∀ p ∈ w.heap, p.2.length ≤ B
  trace : ∀ e ∈ w.st.sock.trace, e.Little B

/-- What a step of coroutine `c` leads to. -/
def ModestAct (B : Nat) (c : Co) (l : Local) : Act → Prop
  | .goto c' => c'.level = c.level ∧ Modest B l c'
  | .call cs c' => Layered cs ∧ (∀ d ∈ cs, d.level < c.level ∧ Modest B l d) ∧ c'.level = c.level ∧ Modest B l c'
  | _ => True

structure ModestRes (B : Nat) (c : Co) (l : Local) (r : Act × Local × World) : Prop where
  act : ModestAct B c r.2.1 r.1
  short : r.2.1.short.length ≤ 125
  world : Compact B r.2.2
  loc : r.2.1 = l ∨ 4 ≤ c.level

variable {B : Nat}

theorem modest_one {c d c' : Co} {l : Local} (h1 : d.level < c.level) (h2 : Modest B l d) (h3 : c'.level = c.level) (h4 : Modest B l c') : ModestAct B c l (.call [d] c') :=
  ⟨List.pairwise_singleton _ _, fun x hx => by rw [List.mem_singleton] at hx; subst hx; exact ⟨h1, h2⟩, h3, h4⟩

theorem Compact.setInp {w : World} (h : Compact B w) (i) : Compact B (w.setInp i) := ⟨h.1, h.2, h.3⟩
theorem Compact.setOut {w : World} (h : Compact B w) (o) : Compact B (w.setOut o) := ⟨h.1, h.2, h.3⟩
theorem Compact.setSock {w : World} (h : Compact B w) {s : Sock} (hs : s.config.readBufferSize ≤ B) (ht : s.trace = w.st.sock.trace) : Compact B (w.setSock s) := ⟨hs, h.2, fun e he => h.3 e (by rw [← ht]; exact he)⟩
theorem Compact.alloc {w : World} (h : Compact B w) {d : List UInt8} (hd : d.length ≤ B) : Compact B (w.alloc d).2 :=
  ⟨h.1, fun p hp => by
    rcases List.mem_cons.mp hp with rfl | hp
    · exact hd
    · exact h.2 p hp, h.3⟩
theorem Compact.free {w : World} (h : Compact B w) (id : Nat) : Compact B (w.free id) := ⟨h.1, fun p hp => h.2 p (List.mem_filter.mp hp).1, h.3⟩
theorem Compact.store {w : World} (h : Compact B w) (id : Nat) {d : List UInt8} (hd : d.length ≤ B) : Compact B (w.store id d) :=
  ⟨h.1, fun p hp => by
    obtain ⟨q, h1, h2⟩ := List.mem_map.mp hp
    split at h2
    · rw [← h2]; exact hd
    · rw [← h2]; exact h.2 q h1, h.3⟩
theorem Compact.callback {w w' : World} (h : Compact B w) {ev : Event} (hev : ev.Little B) (h1 : w'.st.sock.config = w.st.sock.config) (h2 : w'.heap = w.heap)
    (h3 : w'.st.sock.trace = w.st.sock.trace ++ [ev]) : Compact B w' :=
  ⟨by rw [h1]; exact h.1, by rw [h2]; exact h.2, fun e he => by
    rw [h3] at he
    rcases List.mem_append.mp he with he | he
    · exact h.3 e he
    · rw [List.mem_singleton] at he; subst he; exact hev⟩
theorem Compact.destroy {w : World} (h : Compact B w) (c : Co) : Compact B (destroy c w) := by
  cases c <;> first | exact h | exact h.free _
theorem Compact.header {w : World} (h : Compact B w) (env hd fin op n) : Compact B (sendFrameHeaderAsync env hd fin op n w).2.2 := by
  unfold sendFrameHeaderAsync
  dsimp only
  split
  · exact ⟨h.1, h.2, h.3⟩
  · exact h

theorem modest_readStep {c : Co} {l : Local} (need got) (w : World) (again : List UInt8 → Co) (cont : List UInt8 → World → Act × Local × World) (hw : Compact B w) (hs : l.short.length ≤ 125)
    (h1 : ∀ g, (again g).level = c.level ∧ Modest B l (again g)) (h2 : ∀ g w, Compact B w → ModestRes B c l (cont g w)) : ModestRes B c l (readStep need got l w again cont) := by
  unfold readStep
  rcases readInline need got w.st.inp with ⟨(g | g | _ | _), i⟩
  · exact ⟨h1 g, hs, hw.setInp i, .inl rfl⟩
  · exact h2 g _ (hw.setInp i)
  · exact ⟨trivial, hs, hw.setInp i, .inl rfl⟩
  · exact ⟨trivial, hs, hw.setInp i, .inl rfl⟩

theorem modest_writeStep {c : Co} {l : Local} (left) (w : World) (again : List UInt8 → Co) (cont : Act) (hw : Compact B w) (hs : l.short.length ≤ 125)
    (h1 : ∀ g, (again g).level = c.level ∧ Modest B l (again g)) (h2 : ModestAct B c l cont) : ModestRes B c l (writeStep left l w again cont) := by
  unfold writeStep
  rcases writeInline left w.st.sock.out with ⟨(g | g | _ | _), i⟩
  · exact ⟨h1 g, hs, hw.setOut i, .inl rfl⟩
  · exact ⟨h2, hs, hw.setOut i, .inl rfl⟩
  · exact ⟨trivial, hs, hw.setOut i, .inl rfl⟩
  · exact ⟨trivial, hs, hw.setOut i, .inl rfl⟩

theorem modest_startPayload {c : HandleFrameCo} (short pc) {l l0 : Local} {w : World} (hw : Compact B w) (hs : l.short.length ≤ 125) (h0 : short = true → l.short = []) :
    ModestRes B (.handleFrame c) l0 (startPayload c short pc l w) := by
  unfold startPayload readPayloadAsync
  split
  · rename_i co w' h
    split at h
    · cases h
    · rename_i n1
      split at h
      · cases h
      · injection h with h; injection h with h h'; subst h h'
        refine ⟨modest_one (Nat.le_of_ble_eq_true rfl) ⟨?_, Nat.zero_le _, fun hsh => ?_⟩ rfl trivial, hs, hw.alloc (Nat.zero_le _), .inr (Nat.le_of_ble_eq_true rfl)⟩
        · show w.st.sock.config.readBufferSize.toNat ≤ B
          have := hw.1
          omega
        · have hsh : short = true := hsh
          refine ⟨?_, ?_, nofun, nofun⟩
          · rcases Int.lt_or_le 125 l.hdr.payloadLength with h | h
            · exact absurd ⟨hsh, h⟩ n1
            · exact h
          · rw [h0 hsh]; rfl
  · exact ⟨trivial, hs, hw, .inr (Nat.le_of_ble_eq_true rfl)⟩

theorem lowRead_le (o : IoOutcome) (bytes : List UInt8) (n : Nat) {bs rest} (h : lowRead o bytes n = (.data bs, rest)) : bs.length ≤ n := by
  unfold lowRead at h
  cases o <;> dsimp only at h <;> (repeat' split at h) <;> first | (cases h; done) | skip
  all_goals
    injection h with h _
    injection h with h
    subst h
    rw [List.length_take]
    omega

theorem modest_coStep (env : Env) (he : ∀ tr, ∀ op ∈ env.react tr, op.sized B) (c : Co) (l : Local) (w : World) (h : Modest B l c) (hs : l.short.length ≤ 125) (hw : Compact B w) :
    ModestRes B c l (coStep env c l w) := by
  cases c with
  | listen =>
    simp only [coStep, listenStep]
    split
    · refine ⟨⟨?_, ?_, rfl, trivial⟩, hs, hw, .inl rfl⟩
      · exact List.pairwise_cons.mpr ⟨fun x hx => by rw [List.mem_singleton] at hx; subst hx; exact (by decide : 4 < 5), List.pairwise_singleton _ _⟩
      · intro x hx
        simp only [List.mem_cons, List.not_mem_nil, or_false] at hx
        rcases hx with rfl | rfl
        · exact ⟨(by decide : 4 < 6), trivial⟩
        · exact ⟨(by decide : 5 < 6), trivial⟩
    · exact ⟨trivial, hs, hw, .inl rfl⟩
  | readFrame c =>
    have hl : 4 ≤ (Co.readFrame c).level := Nat.le_refl 4
    simp only [coStep, readFrameStep]
    split
    · exact modest_readStep _ _ _ _ _ hw hs (fun _ => ⟨rfl, trivial⟩) (fun _ _ h => ⟨⟨rfl, trivial⟩, hs, h, .inl rfl⟩)
    · split
      · split
        · exact ⟨⟨rfl, trivial⟩, hs, hw, .inr hl⟩
        · split <;> exact ⟨⟨rfl, trivial⟩, hs, hw, .inr hl⟩
      · exact ⟨trivial, hs, hw, .inl rfl⟩
    · exact modest_readStep _ _ _ _ _ hw hs (fun _ => ⟨rfl, trivial⟩) (fun _ _ h => ⟨⟨rfl, trivial⟩, hs, h, .inl rfl⟩)
    · split
      · exact ⟨⟨rfl, trivial⟩, hs, hw, .inr hl⟩
      · exact ⟨trivial, hs, hw, .inr hl⟩
    · refine modest_readStep _ _ _ _ _ hw hs (fun _ => ⟨rfl, trivial⟩) (fun _ _ h => ?_)
      split
      · exact ⟨trivial, hs, h, .inr hl⟩
      · exact ⟨trivial, hs, h, .inl rfl⟩
  | handleFrame c =>
    have hd : ModestRes B (.handleFrame c) l (startData c l w) := by
      unfold startData checkForContinuationA
      split
      · rename_i s h
        split at h
        · cases h
        · split at h <;> (injection h with _ h; subst h; exact modest_startPayload _ _ (hw.setSock hw.1 rfl) hs (fun h => by cases h))
      · rename_i s h
        split at h
        · injection h with _ h; subst h; exact ⟨trivial, hs, hw.setSock hw.1 rfl, .inl rfl⟩
        · split at h <;> cases h
    have hc : ∀ mk : Nat → Event, (∀ to, (mk to).Little B) → ModestRes B (.handleFrame c) l (controlCallback env c mk l w) := by
      intro mk hmk
      unfold controlCallback
      split
      · exact ⟨modest_one (Nat.le_of_ble_eq_true rfl) (he _) rfl trivial, hs, hw.callback (hmk _) rfl rfl rfl, .inl rfl⟩
      · exact ⟨trivial, hs, hw, .inl rfl⟩
    have hk : ∀ pc, ModestRes B (.handleFrame c) l (startPayload c true pc { l with short := [] } w) := fun pc =>
      modest_startPayload _ _ hw (Nat.zero_le _) (fun _ => rfl)
    simp only [coStep, handleFrameStep]
    split
    · split
      · split
        · exact ⟨trivial, hs, hw, .inl rfl⟩
        · exact modest_startPayload _ _ hw hs (fun h => by cases h)
      · split
        · exact hd
        · split
          · exact hd
          · split
            · exact hk _
            · split
              · exact hk _
              · split
                · exact hk _
                · exact ⟨trivial, hs, hw, .inl rfl⟩
    · refine hc _ fun to => ?_
      show (closeArgs env l.short).2.length ≤ 125
      unfold closeArgs
      split
      · rename_i e; rw [e] at hs; simp only [List.length_cons] at hs; dsimp only; omega
      · exact Nat.zero_le _
    · exact hc _ fun _ => hs
    · exact hc _ fun _ => hs
    · exact ⟨trivial, hs, hw, .inl rfl⟩
  | readPayload c =>
    obtain ⟨hcap, hgot, hsh⟩ := h
    have hl : 4 ≤ (Co.readPayload c).level := Nat.le_refl 4
    simp only [coStep, readPayloadStep]
    split
    · split
      · rename_i hlt
        refine ⟨⟨rfl, hcap, Nat.zero_le _, fun h => ?_⟩, hs, hw, .inl rfl⟩
        obtain ⟨h1, h2, -⟩ := hsh h
        refine ⟨h1, h2, fun _ => ⟨?_, rfl, hlt⟩, nofun⟩
        dsimp only
        split <;> omega
      · split
        · split
          · refine ⟨modest_one (Nat.le_of_ble_eq_true rfl) (he _) rfl ⟨hcap, hgot, fun h => ?_⟩, hs, hw.callback (ev := .readMessage _ _ []) (Nat.zero_le _) rfl rfl rfl, .inl rfl⟩
            obtain ⟨h1, h2, -⟩ := hsh h
            exact ⟨h1, h2, nofun, nofun⟩
          · exact ⟨trivial, hs, hw, .inl rfl⟩
        · exact ⟨trivial, hs, hw, .inl rfl⟩
    · rename_i hpc
      have hempty : c.short = true → l.hdr.payloadLength ≤ 125 ∧ (l.short.length : Int) = c.progress ∧ (ReadPayloadPc.onDataRead = .readData → c.want ≤ l.hdr.payloadLength - c.progress ∧ c.got = [] ∧ c.progress < l.hdr.payloadLength) ∧
          (ReadPayloadPc.onDataRead = .onDataRead → (c.got.length : Int) ≤ l.hdr.payloadLength - c.progress) := by
        intro h
        obtain ⟨h1, h2, h3, -⟩ := hsh h
        obtain ⟨h4, h5, h6⟩ := h3 hpc
        refine ⟨h1, h2, nofun, fun _ => ?_⟩
        rw [h5]
        show (0 : Int) ≤ _
        omega
      split
      · exact ⟨⟨rfl, hcap, hgot, hempty⟩, hs, hw, .inl rfl⟩
      · split
        · exact ⟨trivial, hs, hw, .inl rfl⟩
        · split
          · rename_i bs bytes hr
            split
            · exact ⟨trivial, hs, hw.setInp _, .inl rfl⟩
            · rename_i hle
              refine ⟨⟨rfl, hcap, Nat.le_of_not_lt hle, fun h => ?_⟩, hs, (hw.setInp _).store _ (by omega), .inl rfl⟩
              obtain ⟨h1, h2, h3, -⟩ := hsh h
              obtain ⟨h4, h5, h6⟩ := h3 hpc
              refine ⟨h1, h2, nofun, fun _ => ?_⟩
              have := lowRead_le _ _ _ hr
              dsimp only
              omega
          · exact ⟨⟨rfl, hcap, hgot, hsh⟩, hs, hw.setInp _, .inl rfl⟩
          · exact ⟨⟨rfl, hcap, hgot, hempty⟩, hs, hw.setInp _, .inl rfl⟩
          · exact ⟨trivial, hs, hw.setInp _, .inl rfl⟩
    · rename_i hpc
      have hnext : ∀ d : List UInt8, d.length = c.got.length → ∀ b, b = c.short →
          (b = true → Modest B { l with short := l.short ++ d } (.readPayload { c with pc := .act, progress := c.progress + c.got.length }) ∧ (l.short ++ d).length ≤ 125) := by
        intro d hd b hb hb'
        subst hb
        obtain ⟨h1, h2, -, h4⟩ := hsh hb'
        have := h4 hpc
        have hlen : (l.short ++ d).length = l.short.length + c.got.length := by rw [List.length_append, hd]
        refine ⟨⟨hcap, hgot, fun _ => ⟨h1, ?_, nofun, nofun⟩⟩, ?_⟩
        · show ((l.short ++ d).length : Int) = c.progress + c.got.length
          rw [hlen]; omega
        · rw [hlen]; omega
      have hdata : c.short = false → Modest B l (.readPayload { c with pc := .act, progress := c.progress + c.got.length }) := fun h => ⟨hcap, hgot, fun h' => by
        have h' : c.short = true := h'
        rw [h] at h'; cases h'⟩
      split
      · split
        · split
          · rename_i hb
            obtain ⟨a, b⟩ := hnext (xorMask l.hdr.mask c.progress.toNat c.got) (xorMask_length _ _ _) _ rfl hb
            exact ⟨⟨rfl, a⟩, b, hw, .inr hl⟩
          · rename_i hb
            have hb : c.short = false := by simpa using hb
            split
            · rename_i to _
              have hlen : (xorMask l.hdr.mask c.progress.toNat c.got).length ≤ B := by rw [xorMask_length]; omega
              have hx := ((hw.alloc hlen).callback (ev := .readMessage to l.hdr.opcode (xorMask l.hdr.mask c.progress.toNat c.got)) hlen
                (w' := (callback env (.readMessage to l.hdr.opcode (xorMask l.hdr.mask c.progress.toNat c.got)) (some w.nextBuf) (xorMask l.hdr.mask c.progress.toNat c.got)
                  (w.alloc (xorMask l.hdr.mask c.progress.toNat c.got)).2).2) rfl rfl rfl).free w.nextBuf
              exact ⟨modest_one (Nat.le_of_ble_eq_true rfl) (he _) rfl (hdata hb), hs, hx, .inl rfl⟩
            · exact ⟨⟨rfl, hdata hb⟩, hs, hw, .inl rfl⟩
        · split
          · rename_i hb
            obtain ⟨a, b⟩ := hnext c.got rfl _ rfl hb
            exact ⟨⟨rfl, a⟩, b, hw, .inr hl⟩
          · rename_i hb
            have hb : c.short = false := by simpa using hb
            split
            · exact ⟨modest_one (Nat.le_of_ble_eq_true rfl) (he _) rfl (hdata hb), hs, hw.callback (ev := .readMessage _ _ c.got) (Nat.le_trans hgot hcap) rfl rfl rfl, .inl rfl⟩
            · exact ⟨⟨rfl, hdata hb⟩, hs, hw, .inl rfl⟩
      · exact ⟨trivial, hs, hw, .inl rfl⟩
    · exact ⟨trivial, hs, hw, .inl rfl⟩
  | user c =>
    have h : ∀ op ∈ c.ops, op.sized B := h
    have hr : ∀ {op ops}, c.ops = op :: ops → ∀ o ∈ ops, UserOp.sized B o := fun e o ho => h o (by rw [e]; exact List.mem_cons_of_mem _ ho)
    simp only [coStep, userStep]
    split
    · exact ⟨trivial, hs, hw, .inl rfl⟩
    · rename_i e; exact ⟨⟨rfl, hr e⟩, hs, hw, .inl rfl⟩
    · rename_i e; exact ⟨⟨rfl, hr e⟩, hs, hw.setSock hw.1 rfl, .inl rfl⟩
    · rename_i e; exact ⟨⟨rfl, hr e⟩, hs, hw.setSock (h _ (by rw [e]; exact .head _) _ rfl) rfl, .inl rfl⟩
    · rename_i call _ _ e
      refine ⟨modest_one ?_ ?_ rfl (hr e), hs, hw, .inl rfl⟩
      · cases call <;> exact (by decide : 2 < 3)
      · cases call <;> trivial
    · exact ⟨trivial, hs, hw, .inl rfl⟩
  | sendFrame c =>
    have hh : ∀ h fin op n w, (sendFrameHeaderAsync env h fin op n w).2.1.level < (Co.sendFrame c).level ∧ Modest B l (sendFrameHeaderAsync env h fin op n w).2.1 := by
      intro h fin op n w
      unfold sendFrameHeaderAsync
      dsimp only
      split <;> exact ⟨(by decide : 1 < 2), trivial⟩
    simp only [coStep, sendFrameStep]
    split
    · split <;> exact ⟨modest_one (hh _ _ _ _ _).1 (hh _ _ _ _ _).2 rfl trivial, hs, hw.header _ _ _ _ _, .inl rfl⟩
    · split
      · split
        · exact ⟨trivial, hs, hw, .inl rfl⟩
        · exact ⟨⟨rfl, trivial⟩, hs, hw, .inl rfl⟩
      · exact ⟨⟨rfl, trivial⟩, hs, hw, .inl rfl⟩
    · exact modest_writeStep _ _ _ _ hw hs (fun _ => ⟨rfl, trivial⟩) trivial
    · exact ⟨trivial, hs, hw, .inl rfl⟩
  | writeFrame c =>
    simp only [coStep, writeFrameStep]
    split
    · exact modest_writeStep _ _ _ _ hw hs (fun _ => ⟨rfl, trivial⟩) ⟨rfl, trivial⟩
    · split
      · exact ⟨⟨rfl, trivial⟩, hs, hw, .inl rfl⟩
      · split <;> exact ⟨⟨rfl, trivial⟩, hs, hw, .inl rfl⟩
    · exact modest_writeStep _ _ _ _ hw hs (fun _ => ⟨rfl, trivial⟩) ⟨rfl, trivial⟩
    · split
      · exact ⟨⟨rfl, trivial⟩, hs, hw, .inl rfl⟩
      · exact ⟨trivial, hs, hw, .inl rfl⟩
    · exact modest_writeStep _ _ _ _ hw hs (fun _ => ⟨rfl, trivial⟩) trivial

/-- A task needs little. -/
structure Task.Lean (B : Nat) (t : Task) : Prop where
  layered : Layered t.stack
  modest : ∀ c ∈ t.stack, Modest B t.loc c
  short : t.loc.short.length ≤ 125

def Outcome.Lean (B : Nat) : Outcome → Prop
  | .run t => t.Lean B
  | _ => True

theorem lean_unwind (e : AErr) (rest : List Co) (l : Local) (w : World) (h1 : Layered rest) (h2 : ∀ c ∈ rest, Modest B l c) (hs : l.short.length ≤ 125) (hw : Compact B w) :
    (unwind e rest l w).1.Lean B ∧ Compact B (unwind e rest l w).2 := by
  induction rest generalizing w with
  | nil => exact ⟨trivial, hw⟩
  | cons c rest ih =>
    have h1' := (List.pairwise_cons.mp h1).2
    have h2' : ∀ d ∈ rest, Modest B l d := fun d hd => h2 d (List.mem_cons_of_mem _ hd)
    cases c with
    | user c =>
      simp only [unwind]
      split
      · refine ⟨⟨List.pairwise_cons.mpr ⟨(List.pairwise_cons.mp h1).1, h1'⟩, fun d hd => ?_, hs⟩, hw⟩
        rcases List.mem_cons.mp hd with rfl | hd
        · exact h2 (.user c) (.head _)
        · exact h2' d hd
      · exact ih w h1' h2' hw
    | _ => simp only [unwind]; exact ih _ h1' h2' (hw.destroy _)

theorem modest_above {l l' : Local} {c d : Co} (h : Modest B l d) (h1 : 4 ≤ c.level) (h2 : c.level < d.level) : Modest B l' d := by
  cases d with
  | readPayload d => exact absurd (show 4 < 4 from Nat.lt_of_le_of_lt h1 h2) (by decide)
  | user u => exact h
  | _ => trivial

theorem layered_call {cs rest : List Co} {c c' : Co} (h : Layered (c :: rest)) (h1 : Layered cs) (h2 : ∀ d ∈ cs, d.level < c.level) (h3 : c'.level = c.level) : Layered (cs ++ c' :: rest) := by
  obtain ⟨ha, hb⟩ := List.pairwise_cons.mp h
  refine List.pairwise_append.mpr ⟨h1, List.pairwise_cons.mpr ⟨fun d hd => by rw [h3]; exact ha d hd, hb⟩, fun a h4 b h5 => ?_⟩
  rcases List.mem_cons.mp h5 with rfl | h5
  · rw [h3]; exact h2 a h4
  · exact Nat.lt_trans (h2 a h4) (ha b h5)

theorem lean_step (env : Env) (he : ∀ tr, ∀ op ∈ env.react tr, op.sized B) (t : Task) (w : World) (h : t.Lean B) (hw : Compact B w) :
    (step env t w).1.Lean B ∧ Compact B (step env t w).2 := by
  unfold step
  split
  · exact ⟨trivial, hw⟩
  · rename_i c rest hst
    obtain ⟨h1, h2, h3⟩ := h
    rw [hst] at h1 h2
    have hk := modest_coStep env he c t.loc w (h2 c (.head _)) h3 hw
    revert hk
    rcases coStep env c t.loc w with ⟨a, l, w1⟩
    rintro ⟨ha, hs, hw1, hloc⟩
    dsimp only at ha hs hw1 hloc
    obtain ⟨hlt, hlay⟩ := List.pairwise_cons.mp h1
    have hrest : ∀ d ∈ rest, Modest B l d := by
      intro d hd
      rcases hloc with rfl | hl
      · exact h2 d (List.mem_cons_of_mem _ hd)
      · exact modest_above (h2 d (List.mem_cons_of_mem _ hd)) hl (hlt d hd)
    cases a with
    | goto c' =>
      refine ⟨⟨layered_call (cs := []) h1 .nil (fun _ hd => absurd hd List.not_mem_nil) ha.1, fun d hd => ?_, hs⟩, hw1⟩
      rcases List.mem_cons.mp hd with rfl | hd
      · exact ha.2
      · exact hrest d hd
    | call cs c' =>
      obtain ⟨k1, k2, k3, k4⟩ := ha
      refine ⟨⟨layered_call h1 k1 (fun d hd => (k2 d hd).1) k3, fun d hd => ?_, hs⟩, hw1⟩
      rcases List.mem_append.mp hd with hd | hd
      · exact (k2 d hd).2
      · rcases List.mem_cons.mp hd with rfl | hd
        · exact k4
        · exact hrest d hd
    | finish =>
      dsimp only
      split
      · exact ⟨trivial, hw1.destroy _⟩
      · exact ⟨⟨hlay, hrest, hs⟩, hw1.destroy _⟩
    | error e => exact lean_unwind e rest l _ hlay hrest hs (hw1.destroy _)
    | blocked => exact ⟨trivial, hw1⟩
    | ub u => exact ⟨trivial, hw1⟩

end OatWS.Async
