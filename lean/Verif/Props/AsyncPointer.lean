import Verif.Proofs.AsyncCases
import Verif.Spec.Fixtures
/-! # C32: how long the data pointer of an async `readMessage` is valid

Buffers of received data live in `World.heap`; `heap.lookup id` is what the buffer `id` contains (`none`: there is no such
buffer any more). A callback is recorded in `World.calls` with the buffer its pointer refers to and what it finds there. -/

namespace OatWS.Async

/-- Buffers in use have been allocated. -/
def HeapOk (w : World) : Prop := ∀ p ∈ w.heap, p.1 < w.nextBuf

/-- The call finds its data: it has none, or the pointer refers to a buffer that contains it. -/
def Call.good (c : Call) : Prop := (c.event.data = [] ∧ c.ptr = none) ∨ (c.ptr ≠ none ∧ c.found = some c.event.data)

/-- The coroutine returned by a callback, with the pointer it was given: what it would find there now. -/
def pointsTo (w : World) (u : UserCo) : Option (List UInt8) := u.ptr.bind fun id => w.heap.lookup id

/-! ## Heap operations -/

theorem store_head {w : World} {id : Nat} {c c' : List UInt8} {h : List (Nat × List UInt8)} (hh : w.heap = (id, c) :: h)
    (hf : ∀ p ∈ h, p.1 < id) : (w.store id c').heap = (id, c') :: h := by
  unfold World.store
  simp only []
  rw [hh, List.map_cons, if_pos rfl]
  congr 1
  conv => rhs; rw [← List.map_id' h]
  refine List.map_congr_left fun p hp => ?_
  rw [if_neg (by have := hf p hp; omega)]

theorem free_head {w : World} {id : Nat} {c : List UInt8} {h : List (Nat × List UInt8)} (hh : w.heap = (id, c) :: h)
    (hf : ∀ p ∈ h, p.1 < id) : (w.free id).heap = h := by
  unfold World.free
  simp only []
  rw [hh, List.filter_cons, if_neg (by simp), List.filter_eq_self]
  intro p hp
  have := hf p hp
  simp only [ne_eq, decide_eq_true_eq]
  omega

theorem lookup_none {id : Nat} {h : List (Nat × List UInt8)} (hf : ∀ p ∈ h, p.1 ≠ id) : h.lookup id = none := by
  rw [List.lookup_eq_none_iff]
  intro p hp
  have := hf p hp
  simp only [bne_iff_ne, ne_eq]
  exact fun h => this h.symm

/-! ## The invariant -/

/-- User code above a payload coroutine with buffer `buf` that contains `content`. -/
def PtrOk (w0 : World) (masked : Bool) (buf : Nat) (content : List UInt8) (n : Nat) (u : UserCo) : Prop :=
  u.ptr = none ∨ ∃ id, u.ptr = some id ∧ if masked then w0.nextBuf ≤ id ∧ id < n ∧ id ≠ buf else id = buf ∧ u.data = content

/-- User code without a pointer. -/
def NoPtr (u : UserCo) : Prop := u.ptr = none

theorem ptrOk_lasting (w0 m b c n) : Lasting (PtrOk w0 m b c n) := fun _ _ _ _ _ h => h
theorem ptrOk_noCare (w0 m b c n) : NoCare (PtrOk w0 m b c n) := fun _ _ h => h
theorem noPtr_lasting : Lasting NoPtr := fun _ _ _ _ _ h => h
theorem noPtr_noCare : NoCare NoPtr := fun _ _ h => h

inductive HAt (w0 : World) (l : Local) : List Co → World → Prop
  | listen {w} : w.heap = w0.heap → HAt w0 l [.listen] w
  | head {c hl w} : w.heap = w0.heap → HAt w0 l [.readFrame c, .handleFrame ⟨.act, hl⟩, .listen] w
  | act {hl w} : w.heap = w0.heap → HAt w0 l [.handleFrame ⟨.act, hl⟩, .listen] w
  | payload {ss p hf content w} : hf.pc ≠ .act → w.heap = (p.buf, content) :: w0.heap → w0.nextBuf ≤ p.buf → p.buf < w.nextBuf →
      (p.pc = .onDataRead → p.got ≠ [] → content = p.got) → (p.pc = .readData → p.got = []) →
      (∀ c ∈ ss, c.ok (PtrOk w0 l.hdr.hasMask p.buf content w.nextBuf)) →
      HAt w0 l (ss ++ [.readPayload p, .handleFrame hf, .listen]) w
  | handle {ss hf w} : hf.pc ≠ .act → w.heap = w0.heap → (∀ c ∈ ss, c.ok NoPtr) → HAt w0 l (ss ++ [.handleFrame hf, .listen]) w

/-- True of the outcome. -/
def HEnd (w0 : World) : Outcome → World → Prop
  | .run t, w => HAt w0 t.loc t.stack w
  | .finished, w => w.heap = w0.heap
  | .failed _, w => w.heap = w0.heap
  | .blocked, _ => True
  | .ub _, _ => True

structure HOk (w0 : World) (q : Outcome × World) : Prop where
  calls : ∃ cs, q.2.calls = w0.calls ++ cs ∧ ∀ c ∈ cs, c.good
  next : w0.nextBuf ≤ q.2.nextBuf
  at_ : HEnd w0 q.1 q.2

variable {env : Env} {w0 : World}

theorem HOk.mk' {o w cs} (h : w.calls = w0.calls ++ cs) (hc : ∀ c ∈ cs, c.good) (hn : w0.nextBuf ≤ w.nextBuf) (ha : HEnd w0 o w) :
    HOk w0 (o, w) := ⟨⟨cs, h, hc⟩, hn, ha⟩

/-- An error where no buffer is in use. -/
theorem free_error (e : AErr) (c : Co) (hc : ∀ p, c ≠ .readPayload p) (base : List Co) (h : NoUser base)
    (hp : ∀ p, .readPayload p ∉ base) (l : Local) (w : World) :
    after c base (.error e, l, w) = (.failed e, w) := by
  have hd : ∀ d w, (∀ p, d ≠ .readPayload p) → destroy d w = w := by
    intro d w hd
    cases d <;> first | rfl | exact absurd rfl (hd _)
  simp only [after]
  rw [unwind_noUser e base h, hd c w hc]
  congr 1
  clear h
  induction base with
  | nil => rfl
  | cons d base ih =>
    rw [List.foldl_cons, hd d w (fun p e => hp p (by simp [e]))]
    exact ih (fun p hm => hp p (by simp [hm]))

theorem unwind_handle (e : AErr) (hf : HandleFrameCo) (l : Local) (w : World) : unwind e [.handleFrame hf, .listen] l w = (.failed e, w) := rfl
theorem unwind_payload (e : AErr) (p : ReadPayloadCo) (hf : HandleFrameCo) (l : Local) (w : World) :
    unwind e [.readPayload p, .handleFrame hf, .listen] l w = (.failed e, w.free p.buf) := rfl

theorem callback_heap (env ev ptr data) (w : World) : (callback env ev ptr data w).2.heap = w.heap := rfl
theorem callback_calls (env ev ptr data) (w : World) :
    (callback env ev ptr data w).2.calls = w.calls ++ [⟨ev, ptr, ptr.bind fun id => w.heap.lookup id⟩] := rfl

theorem good_snoc {cs : List Call} {c : Call} (h : ∀ c ∈ cs, c.good) (hc : c.good) : ∀ d ∈ cs ++ [c], d.good := by
  intro d hd
  rcases List.mem_append.mp hd with hd | hd
  · exact h d hd
  · rw [List.mem_singleton] at hd; rw [hd]; exact hc

theorem data_control {ev : Event} (h : ev.isMessage = false) : ev.data = [] := by cases ev <;> first | rfl | cases h

/-- A step of `ReadPayloadCoroutine`. -/
theorem payload_heap (h0 : HeapOk w0) {p : ReadPayloadCo} {hf content l} {w : World} {cs} (hcs : w.calls = w0.calls ++ cs) (hgood : ∀ c ∈ cs, c.good)
    (hn : w0.nextBuf ≤ w.nextBuf) (hpc : hf.pc ≠ .act) (hh : w.heap = (p.buf, content) :: w0.heap) (hlo : w0.nextBuf ≤ p.buf)
    (hhi : p.buf < w.nextBuf) (hgot : p.pc = .onDataRead → p.got ≠ [] → content = p.got) (hrd : p.pc = .readData → p.got = []) :
    HOk w0 (step env ⟨[.readPayload p, .handleFrame hf, .listen], l⟩ w) := by
  have hfresh : ∀ q ∈ w0.heap, q.1 < p.buf := fun q hq => Nat.lt_of_lt_of_le (h0 q hq) hlo
  -- next function, same buffer content
  have hgoto : ∀ (p' : ReadPayloadCo) (l' : Local) (w' : World), p'.buf = p.buf → w'.heap = w.heap → w'.nextBuf = w.nextBuf → w'.calls = w.calls →
      (p'.pc = .onDataRead → p'.got ≠ [] → content = p'.got) → (p'.pc = .readData → p'.got = []) →
      HOk w0 (.run ⟨[.readPayload p', .handleFrame hf, .listen], l'⟩, w') := by
    intro p' l' w' e1 e2 e3 e4 h1 h2
    refine .mk' (e4.trans hcs) hgood (by rw [e3]; exact hn) ?_
    exact HAt.payload (ss := []) hpc (by rw [e2, e1]; exact hh) (by rw [e1]; exact hlo) (by rw [e1, e3]; exact hhi) h1 h2 (by simp)
  have hfin : ∀ (l' : Local) (w' : World), w'.heap = w.heap → w'.nextBuf = w.nextBuf → w'.calls = w.calls →
      HOk w0 (after (.readPayload p) [.handleFrame hf, .listen] (.finish, l', w')) := by
    intro l' w' e2 e3 e4
    refine .mk' (e4.trans hcs) hgood (show w0.nextBuf ≤ w'.nextBuf by rw [e3]; exact hn) ?_
    exact HAt.handle (ss := []) hpc (free_head (e2.trans hh) hfresh) (by simp)
  have herr : ∀ (e : AErr) (l' : Local) (w' : World), w'.heap = w.heap → w'.nextBuf = w.nextBuf → w'.calls = w.calls →
      HOk w0 (after (.readPayload p) [.handleFrame hf, .listen] (.error e, l', w')) := by
    intro e l' w' e2 e3 e4
    refine .mk' (e4.trans hcs) hgood (show w0.nextBuf ≤ w'.nextBuf by rw [e3]; exact hn) ?_
    exact free_head (e2.trans hh) hfresh
  rw [step_cons]
  simp only [coStep, readPayloadStep]
  split
  · split
    · exact hgoto _ _ _ rfl rfl rfl rfl (by nofun) (fun _ => rfl)
    · split
      · rename_i to hto
        split
        · refine .mk' (cs := cs ++ [⟨.readMessage to l.hdr.opcode [], none, none⟩]) ?_ (good_snoc hgood (.inl ⟨rfl, rfl⟩)) hn
            (HAt.payload (ss := [.user _]) hpc hh hlo hhi (by nofun) (by nofun) ?_)
          · show w.calls ++ _ = _; rw [hcs, List.append_assoc]; rfl
          · intro c hc; rw [List.mem_singleton] at hc; subst hc; exact .inl rfl
        · exact hfin _ _ rfl rfl rfl
      · exact hfin _ _ rfl rfl rfl
  · rename_i hpc2
    have hg := hrd hpc2
    split
    · exact hgoto _ _ _ rfl rfl rfl rfl (fun _ h => absurd hg h) (by nofun)
    · split
      · exact .mk' hcs hgood hn trivial
      · rename_i oc sched _
        split
        · rename_i bs bytes _
          split
          · exact .mk' (w := w.setInp _) hcs hgood hn trivial
          · refine .mk' (w := (w.setInp ⟨bytes, sched⟩).store p.buf bs) hcs hgood hn (HAt.payload (ss := []) (content := bs) hpc ?_ hlo hhi (fun _ _ => rfl) (by nofun) (by simp))
            exact store_head (w := w.setInp ⟨bytes, sched⟩) hh hfresh
        · exact hgoto _ _ _ rfl rfl rfl rfl (by rw [hpc2]; nofun) (fun _ => hg)
        · exact hgoto _ _ _ rfl rfl rfl rfl (fun _ h => absurd hg h) (by nofun)
        · exact herr _ _ _ rfl rfl rfl
  · rename_i hpc2
    split
    · rename_i hne
      have hcont := hgot hpc2 hne
      split
      · rename_i hmask
        split
        · exact hgoto _ _ _ rfl rfl rfl rfl (by nofun) (by nofun)
        · split
          · rename_i to hto
            refine .mk' (cs := cs ++ [⟨.readMessage to l.hdr.opcode (xorMask l.hdr.mask p.progress.toNat p.got), some w.nextBuf,
              some (xorMask l.hdr.mask p.progress.toNat p.got)⟩]) ?_ (good_snoc hgood (.inr ⟨by nofun, rfl⟩)) (Nat.le_succ_of_le hn)
              (HAt.payload (ss := [.user _]) (content := content) hpc ?_ hlo (Nat.lt_succ_of_lt hhi) (by nofun) (by nofun) ?_)
            · show w.calls ++ _ = _
              rw [hcs, List.append_assoc]
              simp [World.alloc, List.lookup]
            · refine free_head (id := w.nextBuf) (c := xorMask l.hdr.mask p.progress.toNat p.got) ?_ ?_
              · show (w.nextBuf, _) :: w.heap = _; rw [hh]
              · intro q hq
                rcases List.mem_cons.mp hq with rfl | hq
                · exact hhi
                · exact Nat.lt_of_lt_of_le (h0 q hq) hn
            · intro c hc
              rw [List.mem_singleton] at hc
              subst hc
              refine .inr ⟨w.nextBuf, rfl, ?_⟩
              simp only [] at hmask ⊢
              rw [if_pos hmask]
              exact ⟨hn, Nat.lt_succ_self _, by omega⟩
          · exact hgoto _ _ _ rfl rfl rfl rfl (by nofun) (by nofun)
      · rename_i hmask
        split
        · exact hgoto _ _ _ rfl rfl rfl rfl (by nofun) (by nofun)
        · split
          · rename_i to hto
            refine .mk' (cs := cs ++ [⟨.readMessage to l.hdr.opcode p.got, some p.buf, some p.got⟩]) ?_ (good_snoc hgood (.inr ⟨by nofun, rfl⟩)) hn
              (HAt.payload (ss := [.user _]) (content := content) hpc hh hlo hhi (by nofun) (by nofun) ?_)
            · show w.calls ++ _ = _
              rw [hcs, List.append_assoc, hh]
              simp [List.lookup, hcont]
            · intro c hc
              rw [List.mem_singleton] at hc
              subst hc
              refine .inr ⟨p.buf, rfl, ?_⟩
              rw [if_neg hmask]
              exact ⟨rfl, hcont.symm⟩
          · exact hgoto _ _ _ rfl rfl rfl rfl (by nofun) (by nofun)
    · exact herr _ _ _ rfl rfl rfl
  · exact hfin _ _ rfl rfl rfl

/-- Steps keep the invariant. -/
theorem HOk.step (h0 : HeapOk w0) {t : Task} {w : World} (h : HOk w0 (.run t, w)) : HOk w0 (Async.step env t w) := by
  obtain ⟨⟨cs, hcs, hgood⟩, hn, ha⟩ := h
  rcases t with ⟨stack, l⟩
  simp only [HEnd] at ha
  simp only [] at hcs hn
  cases ha with
  | listen hh =>
    rw [step_cons]
    simp only [coStep, listenStep]
    split
    · exact .mk' hcs hgood hn (HAt.head hh)
    · exact .mk' hcs hgood hn hh
  | @head c hl _ hh =>
    rw [step_cons]
    obtain ⟨i, l', a, e, ⟨c', rfl⟩ | rfl | rfl | rfl⟩ := readFrame_cases env c l w <;> rw [e]
    · exact .mk' (w := w.setInp i) hcs hgood hn (HAt.head hh)
    · exact .mk' (w := w.setInp i) hcs hgood hn (HAt.act hh)
    · exact .mk' (w := w.setInp i) hcs hgood hn hh
    · exact .mk' (w := w.setInp i) hcs hgood hn trivial
  | @act hl _ hh =>
    rw [step_cons]
    obtain ⟨l', ⟨p, pc, w', e, e2, e3, e6, e7, s, e4, e5⟩ | ⟨e, s, h, e4⟩⟩ := handleAct_cases env hl l w
    · rw [e]
      refine .mk' (w := w') (cs := cs) ?_ hgood ?_ (HAt.payload (ss := []) (content := []) e2 ?_ ?_ ?_ (by rw [e6]; nofun) (by rw [e6]; nofun) (by simp))
      · rw [e5]; exact hcs
      · rw [e5]; exact Nat.le_succ_of_le hn
      · rw [e5, e7]; show (w.nextBuf, []) :: w.heap = _; rw [hh]
      · rw [e7]; exact hn
      · rw [e5, e7]; exact Nat.lt_succ_self _
    · rw [h]
      exact .mk' (w := w.setSock s) hcs hgood hn hh
  | @payload ss p hf content _ h1 h2 h3 h4 h5 h6 h7 =>
    have hfresh : ∀ q ∈ w0.heap, q.1 < p.buf := fun q hq => Nat.lt_of_lt_of_le (h0 q hq) h3
    cases ss with
    | nil => exact payload_heap h0 hcs hgood hn h1 h2 h3 h4 h5 h6
    | cons s ss =>
      rcases step_above env (ptrOk_lasting _ _ _ _ _) (ptrOk_noCare _ _ _ _ _) s ss [.readPayload p, .handleFrame hf, .listen] h7 l w (by simp) with
        ⟨ss', w', e1, e2, e3⟩ | ⟨e, w', e1, e2, e3⟩ | ⟨w', e1, e2⟩ | ⟨u, w', e1, e2⟩
      · rw [e3]
        refine .mk' (e2.calls.trans hcs) hgood (by rw [e2.nextBuf]; exact hn) (HAt.payload h1 (by rw [e2.heap]; exact h2) h3 (by rw [e2.nextBuf]; exact h4) h5 h6 ?_)
        rw [e2.nextBuf]; exact e1
      · rw [e3, unwind_payload]
        exact .mk' (w := w'.free p.buf) (e1.calls.trans hcs) hgood (show w0.nextBuf ≤ w'.nextBuf by rw [e1.nextBuf]; exact hn) (free_head (e1.heap.trans h2) hfresh)
      · rw [e2]
        exact .mk' (e1.calls.trans hcs) hgood (by rw [e1.nextBuf]; exact hn) trivial
      · rw [e2]
        exact .mk' (e1.calls.trans hcs) hgood (by rw [e1.nextBuf]; exact hn) trivial
  | @handle ss hf _ h1 h2 h3 =>
    cases ss with
    | nil =>
      rw [List.nil_append, step_cons]
      rcases hf with ⟨pc, hl⟩
      rcases handleRest_cases env hl pc l w h1 with ⟨pc', u, w', ev, to, e, e1, e2, e3, e4, e5⟩ | e <;> rw [e]
      · injection e5 with e5 e6
        injection e5 with e5
        refine .mk' (w := w') (cs := cs ++ [⟨ev, none, none⟩]) ?_ (good_snoc hgood (.inl ⟨data_control e4, rfl⟩)) ?_
          (HAt.handle (ss := [.user u]) e1 ?_ ?_)
        · rw [e6]; show w.calls ++ [⟨ev, none, none⟩] = _; rw [hcs, List.append_assoc]
        · rw [e6]; exact hn
        · rw [e6]; exact h2
        · intro c hc; rw [List.mem_singleton] at hc; subst hc; rw [e5]; rfl
      · exact .mk' hcs hgood hn (HAt.listen h2)
    | cons s ss =>
      rcases step_above env noPtr_lasting noPtr_noCare s ss [.handleFrame hf, .listen] h3 l w (by simp) with
        ⟨ss', w', e1, e2, e3⟩ | ⟨e, w', e1, e2, e3⟩ | ⟨w', e1, e2⟩ | ⟨u, w', e1, e2⟩
      · rw [e3]
        exact .mk' (e2.calls.trans hcs) hgood (by rw [e2.nextBuf]; exact hn) (HAt.handle h1 (by rw [e2.heap]; exact h2) e1)
      · rw [e3, unwind_handle]
        exact .mk' (e1.calls.trans hcs) hgood (by rw [e1.nextBuf]; exact hn) (e1.heap.trans h2)
      · rw [e2]
        exact .mk' (e1.calls.trans hcs) hgood (by rw [e1.nextBuf]; exact hn) trivial
      · rw [e2]
        exact .mk' (e1.calls.trans hcs) hgood (by rw [e1.nextBuf]; exact hn) trivial

theorem HOk.others {o w w'} (h : HOk w0 (o, w)) (hw : OthersDo w w') : HOk w0 (o, w') := by
  obtain ⟨⟨cs, hcs, hgood⟩, hn, ha⟩ := h
  refine .mk' (hw.calls.trans hcs) hgood (by rw [hw.nextBuf]; exact hn) ?_
  cases o with
  | run t =>
    simp only [HEnd] at ha ⊢
    revert ha
    generalize t.stack = s
    intro ha
    cases ha with
    | listen h => exact .listen (hw.heap.trans h)
    | head h => exact .head (hw.heap.trans h)
    | act h => exact .act (hw.heap.trans h)
    | payload h1 h2 h3 h4 h5 h6 h7 => exact .payload h1 (hw.heap.trans h2) h3 (by rw [hw.nextBuf]; exact h4) h5 h6 (by rw [hw.nextBuf]; exact h7)
    | handle h1 h2 h3 => exact .handle h1 (hw.heap.trans h2) h3
  | finished => exact hw.heap.trans ha
  | failed e => exact hw.heap.trans ha
  | blocked => trivial
  | ub u => trivial

theorem heap_ok (h0 : HeapOk w0) (h : Header) {q} (he : Exec env OthersDo (fun _ => True) (.run (listenTask h), w0) q) : HOk w0 q := by
  have hstart : HOk w0 (.run (listenTask h), w0) := .mk' (cs := []) (by simp) (by simp) (Nat.le_refl _) (.listen rfl)
  revert he hstart
  generalize (Outcome.run (listenTask h), w0) = a
  intro he hstart
  induction he with
  | refl => exact hstart
  | own _ _ hs ih => rw [← hs]; exact ih.step h0
  | other _ hr ih => exact ih.others hr

/-! ## C32 -/

/-- **C32** (in the call). While `readMessage` (or another callback) is called, its data pointer refers to a buffer that contains exactly
the data; only callbacks without data have no pointer. In any execution of `listenAsync`, with any other tasks active. -/
theorem C32_valid_in_call (h0 : HeapOk w0) (h : Header) {q} (he : Exec env OthersDo (fun _ => True) (.run (listenTask h), w0) q) :
    ∀ c ∈ q.2.calls.drop w0.calls.length, (c.event.data = [] ∧ c.ptr = none) ∨ (c.ptr ≠ none ∧ c.found = some c.event.data) := by
  obtain ⟨cs, e, hc⟩ := (heap_ok h0 h he).calls
  rw [e, List.drop_left]
  exact hc

theorem user_ptr (h0 : HeapOk w0) (h : Header) {t : Task} {w : World}
    (he : Exec env OthersDo (fun _ => True) (.run (listenTask h), w0) (.run t, w)) {u : UserCo} (hu : .user u ∈ t.stack) {id} (hid : u.ptr = some id) :
    ∃ buf content, w.heap = (buf, content) :: w0.heap ∧ w0.nextBuf ≤ buf ∧
      if t.loc.hdr.hasMask then w0.nextBuf ≤ id ∧ id < w.nextBuf ∧ id ≠ buf else id = buf ∧ u.data = content := by
  have := (heap_ok h0 h he).at_
  simp only [HEnd] at this
  revert this hu
  generalize t.stack = s
  intro hu this
  cases this with
  | listen => simp at hu
  | head => simp at hu
  | act => simp at hu
  | @payload ss p hf content _ h1 h2 h3 h4 h5 h6 h7 =>
    rcases List.mem_append.mp hu with hu | hu
    · have : PtrOk w0 t.loc.hdr.hasMask p.buf content w.nextBuf u := h7 _ hu
      rcases this with h | ⟨id', e, h⟩
      · rw [hid] at h; cases h
      · rw [hid] at e; injection e with e; subst e
        exact ⟨_, _, h2, h3, h⟩
    · simp at hu
  | @handle ss hf _ h1 h2 h3 =>
    rcases List.mem_append.mp hu with hu | hu
    · have : u.ptr = none := h3 _ hu
      rw [hid] at this; cases this
    · simp at hu

/-- **C32** (unmasked frames). As long as the coroutine returned by a callback has not finished (it, or a send it waits for, is running),
the pointer still refers to the data. -/
theorem C32_unmasked_in_coroutine (h0 : HeapOk w0) (h : Header) {t : Task} {w : World}
    (he : Exec env OthersDo (fun _ => True) (.run (listenTask h), w0) (.run t, w)) {u : UserCo} (hu : .user u ∈ t.stack) (hp : u.ptr ≠ none)
    (hm : t.loc.hdr.hasMask = false) : pointsTo w u = some u.data := by
  obtain ⟨id, hid⟩ := Option.ne_none_iff_exists'.mp hp
  obtain ⟨buf, content, e, -, e2⟩ := user_ptr h0 h he hu hid
  rw [hm] at e2
  simp only [Bool.false_eq_true, if_false] at e2
  unfold pointsTo
  rw [hid, e]
  simp [List.lookup, e2.1, e2.2]

/-- **C32** (masked frames). Whenever the coroutine returned by a callback runs, the buffer does not exist any more. -/
theorem C32_masked_dangles (h0 : HeapOk w0) (h : Header) {t : Task} {w : World}
    (he : Exec env OthersDo (fun _ => True) (.run (listenTask h), w0) (.run t, w)) {u : UserCo} (hu : .user u ∈ t.stack) (hp : u.ptr ≠ none)
    (hm : t.loc.hdr.hasMask = true) : pointsTo w u = none := by
  obtain ⟨id, hid⟩ := Option.ne_none_iff_exists'.mp hp
  obtain ⟨buf, content, e, hb, e2⟩ := user_ptr h0 h he hu hid
  rw [if_pos hm] at e2
  unfold pointsTo
  rw [hid, e]
  refine lookup_none fun q hq => ?_
  rcases List.mem_cons.mp hq with rfl | hq
  · exact fun h => e2.2.2 h.symm
  · have := h0 q hq; omega

/-- **C32** (no leak). When `listenAsync` has finished or failed, all its buffers were freed and no others. -/
theorem C32_no_leak (h0 : HeapOk w0) (h : Header) {q} (he : Exec env OthersDo (fun _ => True) (.run (listenTask h), w0) q)
    (hq : q.1 = .finished ∨ ∃ e, q.1 = .failed e) : q.2.heap = w0.heap := by
  have := (heap_ok h0 h he).at_
  rcases q with ⟨o, w⟩
  rcases hq with rfl | ⟨e, rfl⟩ <;> exact this

/-! ## The hypotheses are met -/

/-- The first `n` steps of a task. -/
def firstSteps (env : Env) : Nat → Outcome × World → Outcome × World
  | n + 1, (.run t, w) => firstSteps env n (step env t w)
  | _, p => p

theorem firstSteps_exec (env : Env) (R) (n : Nat) (p : Outcome × World) : Exec env R (fun _ => True) p (firstSteps env n p) := by
  induction n generalizing p with
  | zero => rcases p with ⟨_ | _, _⟩ <;> exact .refl
  | succ n ih =>
    rcases p with ⟨o, w⟩
    cases o with
    | run t => exact .trans (.own .refl trivial rfl) (ih _)
    | _ => exact .refl

/-- The pointers of the user coroutines on the stack, what is found there, and whether the frame is masked. -/
def seen (q : Outcome × World) : List (Option Nat × Option (List UInt8) × Bool) :=
  match q with
  | (.run t, w) => t.stack.filterMap fun c => match c with
    | .user u => some (u.ptr, pointsTo w u, t.loc.hdr.hasMask)
    | _ => none
  | _ => []

/-- A masked frame: the coroutine runs with a dangling pointer. -/
example : HeapOk { st := Fixture.receiving (wireOf [Fixture.hel]) } ∧
    seen (firstSteps Fixture.env 20 (.run (listenTask default), { st := Fixture.receiving (wireOf [Fixture.hel]) })) = [(some 1, none, true)] := by
  exact ⟨nofun, by decide +kernel⟩

/-- An unmasked frame: the coroutine runs with a valid pointer. -/
example : HeapOk { st := Fixture.receiving (wireOf [Fixture.text]) } ∧
    seen (firstSteps Fixture.env 12 (.run (listenTask default), { st := Fixture.receiving (wireOf [Fixture.text]) }))
      = [(some 0, some [0x61], false)] := by
  exact ⟨nofun, by decide +kernel⟩

end OatWS.Async
